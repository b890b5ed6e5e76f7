import Verif.Spec.DomainNumbers
import Verif.Lemmas.LagrangeBasis
import Mathlib.Tactic.Common
import Mathlib.Data.List.GetD

/-! # Lemmas for the global equation numbers: the data of one process -/
namespace IFEM.DomNum
open IFEM.Mpi

attribute [-simp] Fin.getElem_fin

theorem mapM_some'' {α β : Type} (f : α → Option β) (g : α → β) : ∀ l : List α, (∀ x ∈ l, f x = some (g x)) → l.mapM f = some (l.map g)
  | [], _ => rfl
  | x :: l, h => by
    rw [List.mapM_cons, h x (by simp), mapM_some'' f g l (fun y hy => h y (by simp [hy]))]
    rfl

/-- Value of an entry when the numbers have the right length. -/
def entry (d : Proc) (mlgeq : List Int) (x : Nat × Nat) : Int := if d.getEq x.1 x.2 > 0 then mlgeq.getD (d.getEq x.1 x.2 - 1).toNat 0 else 0

theorem setupEqs_ok (d : Proc) (mlgeq : List Int) (parts : List Part) (hd : ∀ n c, d.getEq n c ≤ d.neq) (hl : mlgeq.length = d.neq) :
    setupEqs d mlgeq parts = some ((bdryDofs parts).map (entry d mlgeq)) := by
  refine mapM_some'' _ _ _ fun x _ => ?_
  unfold eqEntry entry
  split
  · have := hd x.1 x.2
    have h : (d.getEq x.1 x.2 - 1).toNat < mlgeq.length := by omega
    rw [List.getD_eq_getElem _ _ h, List.getElem?_eq_getElem h]
  · rfl

theorem bdryDofs_cons (b : Part) (ps : List Part) : bdryDofs (b :: ps) = bdryDofs [b] ++ bdryDofs ps := by simp [bdryDofs]

theorem bdryDofs_one_length (b : Part) : (bdryDofs [b]).length = b.nodes.length*b.ncmp := by
  simp [bdryDofs, List.length_flatMap]

theorem flatMap_get {α β : Type} (f : α → List β) (m : Nat) : ∀ (l : List α), (∀ x ∈ l, (f x).length = m) → ∀ k i (h : k < l.length), i < m →
    (l.flatMap f)[k*m+i]? = (f l[k])[i]?
  | [], _, k, i, h, _ => by simp at h
  | x :: l, hf, 0, i, h, hi => by
    have := hf x (by simp)
    rw [List.flatMap_cons, List.getElem?_append_left (by omega)]
    simp
  | x :: l, hf, k+1, i, h, hi => by
    have h1 := hf x (by simp)
    rw [List.flatMap_cons, List.getElem?_append_right (by rw [Nat.add_mul]; omega)]
    have e : (k+1)*m + i - (f x).length = k*m+i := by rw [Nat.add_mul]; omega
    rw [e, flatMap_get f m l (fun y hy => hf y (by simp [hy])) k i (by simpa using h) hi]
    simp

theorem bdryDofs_one_get (b : Part) (k c : Nat) (hk : k < b.nodes.length) (hc : c < b.ncmp) :
    (bdryDofs [b])[k*b.ncmp+c]? = some (b.nodes.getD k 0, c+1) := by
  have : bdryDofs [b] = b.nodes.flatMap fun n => (List.range b.ncmp).map fun c => (n, c+1) := by simp [bdryDofs]
  rw [this, flatMap_get _ b.ncmp _ (by simp) k c hk hc, List.getD_eq_getElem _ _ hk]
  simp [hc]

theorem pairIdx_dofs (thick : Nat) : ∀ (orders : List (List Nat)) (ss ms : List Part) (preS preM : List (Nat × Nat)),
    ss.length = orders.length → ms.length = orders.length → ms.map (·.ncmp) = ss.map (·.ncmp) →
    (∀ x ∈ orders.zip ss, x.2.nodes.length = x.1.length*thick) → (∀ x ∈ orders.zip ms, x.2.nodes.length = x.1.length*thick) →
    (∀ o ∈ orders, ∀ i ∈ o, i < o.length) → preM.length = preS.length →
    (pairIdx thick preS.length (orders.zip (ss.map (·.ncmp)))).map (fun x => ((preS ++ bdryDofs ss)[x.1]?, (preM ++ bdryDofs ms)[x.2]?)) =
      ((orders.zip (ss.zip ms)).flatMap fun x => partLinks thick x.1 x.2.1 x.2.2).map fun y => (some y.1, some y.2)
  | [], ss, ms, preS, preM, h1, h2, _, _, _, _, _ => by simp [pairIdx]
  | o :: os, [], _, _, _, h1, _, _, _, _, _, _ => by simp at h1
  | o :: os, _ :: _, [], _, _, _, h2, _, _, _, _, _ => by simp at h2
  | o :: os, s :: ss, m :: ms, preS, preM, h1, h2, hn, hs, hm, ho, hp => by
    simp only [List.length_cons, Nat.add_right_cancel_iff] at h1 h2
    simp only [List.map_cons, List.cons.injEq] at hn
    obtain ⟨hn1, hn2⟩ := hn
    have hs1 := hs (o, s) (by simp)
    have hm1 := hm (o, m) (by simp)
    have ho1 := ho o (by simp)
    simp only at hs1 hm1
    have ih := pairIdx_dofs thick os ss ms (preS ++ bdryDofs [s]) (preM ++ bdryDofs [m]) h1 h2 hn2
      (fun x hx => hs x (by simp [hx])) (fun x hx => hm x (by simp [hx])) (fun x hx => ho x (by simp [hx]))
      (by simp only [List.length_append, bdryDofs_one_length, hp, hn1, hs1, hm1])
    rw [List.append_assoc, List.append_assoc, ← bdryDofs_cons, ← bdryDofs_cons] at ih
    have e : (preS ++ bdryDofs [s]).length = preS.length + o.length*s.ncmp*thick := by
      rw [List.length_append, bdryDofs_one_length, hs1]; ring
    rw [e] at ih
    simp only [List.map_cons, List.zip_cons_cons, pairIdx, List.map_append, List.flatMap_cons, ih]
    congr 1
    unfold partLinks
    simp only [List.map_flatMap, List.map_map]
    refine List.flatMap_congr fun i hi => List.flatMap_congr fun t ht => List.map_congr_left fun c hc => ?_
    simp only [List.mem_range] at hi ht hc
    simp only [Function.comp_apply]
    have hb : ∀ j, j < o.length → j*thick+t < o.length*thick := fun j hj => by
      calc j*thick+t < j*thick+thick := by omega
        _ = (j+1)*thick := by ring
        _ ≤ o.length*thick := Nat.mul_le_mul_right _ hj
    have hoi : o.getD i 0 < o.length := by
      rw [List.getD_eq_getElem _ _ hi]
      exact ho1 _ (List.getElem_mem _)
    have key : ∀ (pre : List (Nat × Nat)) (b : Part) (bs : List Part) (j : Nat), pre.length = preS.length → b.ncmp = s.ncmp → b.nodes.length = o.length*thick → j < o.length →
        (pre ++ bdryDofs (b :: bs))[preS.length + (j*thick+t)*s.ncmp + c]? = some (b.nodes.getD (j*thick+t) 0, c+1) := by
      intro pre b bs j hpre hb1 hb2 hj
      have h3 := hb j hj
      have h4 : (j*thick+t)*s.ncmp + c < (bdryDofs [b]).length := by
        rw [bdryDofs_one_length, hb1, hb2]
        calc (j*thick+t)*s.ncmp + c < (j*thick+t)*s.ncmp + s.ncmp := by omega
          _ = (j*thick+t+1)*s.ncmp := by ring
          _ ≤ _ := Nat.mul_le_mul_right _ h3
      rw [List.getElem?_append_right (by omega), hpre, Nat.add_assoc, Nat.add_sub_cancel_left, bdryDofs_cons, List.getElem?_append_left h4]
      have := bdryDofs_one_get b (j*thick+t) c (by omega) (by omega)
      rwa [hb1] at this
    rw [key preS s ss i rfl rfl hs1 hi, key preM m ms (o.getD i 0) hp hn1 hm1 hoi]

theorem pairIdx_conn (c : Conn) (h1 : c.sParts.length = c.orders.length ∧ c.mParts.length = c.orders.length)
    (h2 : c.mParts.map (·.ncmp) = c.sParts.map (·.ncmp))
    (h3 : (∀ x ∈ c.orders.zip c.sParts, x.2.nodes.length = x.1.length*c.thick) ∧ (∀ x ∈ c.orders.zip c.mParts, x.2.nodes.length = x.1.length*c.thick))
    (h4 : ∀ o ∈ c.orders, ∀ i ∈ o, i < o.length) :
    (pairIdx c.thick 0 (c.orders.zip (c.sParts.map (·.ncmp)))).map (fun x => ((bdryDofs c.sParts)[x.1]?, (bdryDofs c.mParts)[x.2]?)) =
      ((c.orders.zip (c.sParts.zip c.mParts)).flatMap fun x => partLinks c.thick x.1 x.2.1 x.2.2).map fun y => (some y.1, some y.2) := by
  simpa using pairIdx_dofs c.thick c.orders c.sParts c.mParts [] [] h1.1 h1.2 h2 h3.1 h3.2 h4 rfl

theorem bdry_lengths : ∀ (orders : List (List Nat)) (thick : Nat) (ss ms : List Part), ss.length = orders.length → ms.length = orders.length →
    ms.map (·.ncmp) = ss.map (·.ncmp) →
    (∀ x ∈ orders.zip ss, x.2.nodes.length = x.1.length*thick) → (∀ x ∈ orders.zip ms, x.2.nodes.length = x.1.length*thick) →
    (bdryDofs ms).length = (bdryDofs ss).length
  | [], _, ss, ms, h1, h2, _, _, _ => by
    simp only [List.length_nil, List.length_eq_zero_iff] at h1 h2
    simp [h1, h2]
  | o :: os, _, [], _, h1, _, _, _, _ => by simp at h1
  | o :: os, _, _ :: _, [], _, h2, _, _, _ => by simp at h2
  | o :: os, thick, s :: ss, m :: ms, h1, h2, hn, hs, hm => by
    simp only [List.length_cons, Nat.add_right_cancel_iff] at h1 h2
    simp only [List.map_cons, List.cons.injEq] at hn
    have hs1 := hs (o, s) (by simp)
    have hm1 := hm (o, m) (by simp)
    simp only at hs1 hm1
    rw [bdryDofs_cons s ss, bdryDofs_cons m ms, List.length_append, List.length_append, bdryDofs_one_length, bdryDofs_one_length, hs1, hm1, hn.1,
      bdry_lengths os thick ss ms h1 h2 hn.2 (fun x hx => hs x (by simp [hx])) (fun x hx => hm x (by simp [hx]))]

/-! ### Remapping -/

/-- Records one link. -/
def relink (nEq : Int) (out : Nat → Res) (rm : Remap) (x : Int × Eqn) : Remap := ((nEq + x.1, number out x.2) :: rm.1, rm.2.set (x.1-1).toNat true)

theorem relink_length (nEq : Int) (out : Nat → Res) (rm : Remap) (x : Int × Eqn) : (relink nEq out rm x).2.length = rm.2.length := by simp [relink]

theorem relinks_length (nEq : Int) (out : Nat → Res) : ∀ (ls : List (Int × Eqn)) (rm : Remap), (ls.foldl (relink nEq out) rm).2.length = rm.2.length
  | [], _ => rfl
  | x :: ls, rm => by rw [List.foldl_cons, relinks_length nEq out ls, relink_length]

theorem assign_link (nEq : Int) (out : Nat → Res) (rm : Remap) (x : Int × Eqn) (h1 : 1 ≤ x.1) (h2 : x.1 ≤ rm.2.length) :
    assign nEq rm (nEq + x.1) (number out x.2) = some (relink nEq out rm x) := by
  unfold assign relink
  have e : nEq + x.1 - nEq - 1 = x.1 - 1 := by omega
  rw [e, if_pos ⟨by omega, by omega⟩]

/-- The master entry for an equation. -/
theorem entry_master (procs : Nat → Proc) (out : Nat → Res) (r : Nat) (x : Nat × Nat) (h : 0 < (procs r).getEq x.1 x.2) :
    entry (procs r) (out r).mlgeq x = number out (r, (procs r).getEq x.1 x.2) := by
  unfold entry number
  rw [if_pos h]

theorem iota_get (neq : Nat) (nEq : Int) (i : Int) (h1 : 1 ≤ i) (h2 : i ≤ neq) : (iota neq nEq).getD (i-1).toNat 0 = nEq + i := by
  have h : (i-1).toNat < neq := by omega
  unfold iota
  rw [List.getD_eq_getElem _ _ (by simpa using h)]
  simp
  omega

theorem foldlM_map {α β σ : Type} (f : σ → β → Option σ) (g : α → β) : ∀ (l : List α) (s : σ), (l.map g).foldlM f s = l.foldlM (fun s x => f s (g x)) s
  | [], _ => rfl
  | x :: l, s => by
    rw [List.map_cons, List.foldlM_cons, List.foldlM_cons]
    congr 1
    funext s'
    exact foldlM_map f g l s'

/-- The slave records exactly the links of the connection. -/
theorem applyConn_ok (procs : Nat → Proc) (out : Nat → Res) (c : Conn) (nEq : Int) (rm : Remap) (hnEq : 0 ≤ nEq)
    (hd : ∀ p n k, (procs p).getEq n k ≤ (procs p).neq) (hl : (out c.master).mlgeq.length = (procs c.master).neq)
    (hpos : ∀ i : Int, 1 ≤ i → i ≤ (procs c.master).neq → 1 ≤ number out (c.master, i))
    (hrm : rm.2.length = (procs c.slave).neq)
    (h1 : c.sParts.length = c.orders.length ∧ c.mParts.length = c.orders.length)
    (h2 : c.mParts.map (·.ncmp) = c.sParts.map (·.ncmp))
    (h3 : (∀ x ∈ c.orders.zip c.sParts, x.2.nodes.length = x.1.length*c.thick) ∧ (∀ x ∈ c.orders.zip c.mParts, x.2.nodes.length = x.1.length*c.thick))
    (h4 : ∀ o ∈ c.orders, ∀ i ∈ o, i < o.length)
    (h5 : ∀ x ∈ c.orders.zip (c.sParts.zip c.mParts), ∀ y ∈ partLinks c.thick x.1 x.2.1 x.2.2,
      (0 < (procs c.slave).getEq y.1.1 y.1.2 ↔ 0 < (procs c.master).getEq y.2.1 y.2.2)) :
    applyConn nEq c ((bdryDofs c.sParts).map (entry (procs c.slave) (iota (procs c.slave).neq nEq))) ((bdryDofs c.mParts).map (entry (procs c.master) (out c.master).mlgeq)) rm =
      some ((connLinks procs c).foldl (relink nEq out) rm) := by
  unfold applyConn
  have hp := pairIdx_conn c h1 h2 h3 h4
  set P := pairIdx c.thick 0 (c.orders.zip (c.sParts.map (·.ncmp))) with hP
  -- the loop over the pairs of indices as a loop over pairs of unknowns
  let F : Remap → Option (Nat × Nat) × Option (Nat × Nat) → Option Remap := fun rm x => do
    let leq ← x.1.map (entry (procs c.slave) (iota (procs c.slave).neq nEq))
    let geq ← x.2.map (entry (procs c.master) (out c.master).mlgeq)
    if (leq < 1 ∧ geq > 0) ∨ (leq > 0 ∧ geq < 1) then none else if leq < 1 then some rm else assign nEq rm leq geq
  have hF : P.foldlM (pairEq nEq ((bdryDofs c.sParts).map (entry (procs c.slave) (iota (procs c.slave).neq nEq)))
      ((bdryDofs c.mParts).map (entry (procs c.master) (out c.master).mlgeq))) rm =
      (P.map (fun x => ((bdryDofs c.sParts)[x.1]?, (bdryDofs c.mParts)[x.2]?))).foldlM F rm := by
    rw [foldlM_map]
    congr 1
    funext s x
    simp only [pairEq, F, List.getElem?_map]
  rw [hF, hp, foldlM_map]
  have h5' : ∀ y ∈ (c.orders.zip (c.sParts.zip c.mParts)).flatMap fun x => partLinks c.thick x.1 x.2.1 x.2.2,
      (0 < (procs c.slave).getEq y.1.1 y.1.2 ↔ 0 < (procs c.master).getEq y.2.1 y.2.2) := by
    intro y hy
    obtain ⟨x, hx, hy⟩ := List.mem_flatMap.1 hy
    exact h5 x hx y hy
  unfold connLinks
  generalize ((c.orders.zip (c.sParts.zip c.mParts)).flatMap fun x => partLinks c.thick x.1 x.2.1 x.2.2) = Y at h5'
  clear hF hp hP P
  induction Y generalizing rm with
  | nil => rfl
  | cons y Y ih =>
    rw [List.foldlM_cons]
    have hy := h5' y (by simp)
    have hs := hd c.slave y.1.1 y.1.2
    have hm := hd c.master y.2.1 y.2.2
    by_cases h : 0 < (procs c.slave).getEq y.1.1 y.1.2
    · have h' := hy.1 h
      have e1 : entry (procs c.slave) (iota (procs c.slave).neq nEq) y.1 = nEq + (procs c.slave).getEq y.1.1 y.1.2 := by
        unfold entry
        rw [if_pos h, iota_get _ _ _ (by omega) hs]
      have e2 := entry_master procs out c.master y.2 h'
      have p2 := hpos _ (by omega) hm
      have e3 := assign_link nEq out rm ((procs c.slave).getEq y.1.1 y.1.2, (c.master, (procs c.master).getEq y.2.1 y.2.2)) (by simp; omega) (by simp [hrm]; exact hs)
      have : F rm (some y.1, some y.2) = some (relink nEq out rm ((procs c.slave).getEq y.1.1 y.1.2, (c.master, (procs c.master).getEq y.2.1 y.2.2))) := by
        simp only [F, Option.map_some, Option.bind_eq_bind, Option.bind_some, e1, e2]
        rw [if_neg (by omega), if_neg (by omega)]
        exact e3
      rw [this, List.filterMap_cons_some (b := ((procs c.slave).getEq y.1.1 y.1.2, (c.master, (procs c.master).getEq y.2.1 y.2.2))) (by rw [if_pos h]), List.foldl_cons]
      exact ih _ (by rw [relink_length, hrm]) fun z hz => h5' z (by simp [hz])
    · have h' : ¬ 0 < (procs c.master).getEq y.2.1 y.2.2 := fun hh => h (hy.2 hh)
      have : F rm (some y.1, some y.2) = some rm := by
        simp only [F, Option.map_some, Option.bind_eq_bind, Option.bind_some, entry]
        rw [if_neg h, if_neg h']
        simp
      rw [this, List.filterMap_cons_none (by rw [if_neg h])]
      exact ih _ hrm fun z hz => h5' z (by simp [hz])

/-- The numbers of the multipliers of a process. -/
theorem lmNumbers_ok (procs : Nat → Proc) (out : Nat → Res) (r : Nat) (hd : ∀ p n k, (procs p).getEq n k ≤ (procs p).neq)
    (hp : ∀ n ∈ (procs r).lms, 0 < (procs r).getEq n 1) (hl : (out r).mlgeq.length = (procs r).neq) :
    lmNumbers (procs r) (out r).mlgeq = some ((procs r).lms.map fun n => number out (r, (procs r).getEq n 1)) := by
  unfold lmNumbers
  rw [List.filter_eq_self.2 (fun n hn => by simpa using hp n hn)]
  refine mapM_some'' _ _ _ fun n hn => ?_
  have h1 := hd r n 1
  have h2 := hp n hn
  have h : ((procs r).getEq n 1 - 1).toNat < (out r).mlgeq.length := by omega
  unfold number
  rw [List.getD_eq_getElem _ _ h, List.getElem?_eq_getElem h]

theorem applyLMs_ok (procs : Nat → Proc) (out : Nat → Res) (p : Nat) (nEq : Int) (hd : ∀ p n k, (procs p).getEq n k ≤ (procs p).neq)
    (hp : ∀ n ∈ (procs (p+1)).lms, 0 < (procs (p+1)).getEq n 1) (rm : Remap) (hrm : rm.2.length = (procs (p+1)).neq) :
    applyLMs (procs (p+1)) nEq (iota (procs (p+1)).neq nEq) ((procs p).lms.map fun n => number out (p, (procs p).getEq n 1)) rm =
      some ((lmLinks procs (p+1)).foldl (relink nEq out) rm) := by
  unfold applyLMs lmLinks
  rw [if_neg (by omega), Nat.add_sub_cancel]
  generalize (procs p).lms = L'
  revert hp
  generalize (procs (p+1)).lms = L
  intro hp
  induction L generalizing L' rm with
  | nil => simp
  | cons x L ih =>
    cases L' with
    | nil => simp
    | cons x' L' =>
      simp only [List.map_cons, List.zip_cons_cons, List.foldlM_cons, List.foldl_cons]
      have h1 := hd (p+1) x 1
      have h2 := hp x (by simp)
      have hi : ((procs (p+1)).getEq x 1 - 1).toNat < (iota (procs (p+1)).neq nEq).length := by simp [iota]; omega
      have e : (iota (procs (p+1)).neq nEq)[((procs (p+1)).getEq x 1 - 1).toNat]? = some (nEq + (procs (p+1)).getEq x 1) := by
        have := iota_get (procs (p+1)).neq nEq ((procs (p+1)).getEq x 1) (by omega) h1
        rw [List.getD_eq_getElem _ _ hi] at this
        rw [List.getElem?_eq_getElem hi, this]
      rw [if_pos h2, e, Option.bind_some]
      have e3 := assign_link nEq out rm ((procs (p+1)).getEq x 1, (p, (procs p).getEq x' 1)) (by simp; omega) (by simp [hrm]; exact h1)
      simp only at e3
      rw [e3]
      exact ih _ (by rw [relink_length, hrm]) L' fun n hn => hp n (by simp [hn])

theorem relinks_map (nEq : Int) (out : Nat → Res) : ∀ (ls : List (Int × Eqn)) (rm : Remap),
    (ls.foldl (relink nEq out) rm).1 = (ls.map fun x => (nEq + x.1, number out x.2)).reverse ++ rm.1
  | [], _ => rfl
  | x :: ls, rm => by
    rw [List.foldl_cons, relinks_map nEq out ls]
    simp [relink]

theorem relinks_flags (nEq : Int) (out : Nat → Res) : ∀ (ls : List (Int × Eqn)) (rm : Remap), (∀ x ∈ ls, 1 ≤ x.1) → ∀ k < rm.2.length,
    ((ls.foldl (relink nEq out) rm).2.getD k false = true ↔ rm.2.getD k false = true ∨ ∃ x ∈ ls, x.1 = (k : Int)+1)
  | [], rm, _, k, hk => by simp
  | x :: ls, rm, h, k, hk => by
    rw [List.foldl_cons, relinks_flags nEq out ls _ (fun y hy => h y (by simp [hy])) k (by rwa [relink_length])]
    have hx := h x (by simp)
    have e : (relink nEq out rm x).2.getD k false = if x.1 = (k : Int)+1 then true else rm.2.getD k false := by
      unfold relink
      simp only [List.getD_eq_getElem?_getD, List.getElem?_set]
      by_cases h1 : x.1 = (k : Int)+1
      · rw [if_pos (by omega), if_pos (by omega), if_pos h1]; rfl
      · rw [if_neg (by omega), if_neg h1]
    rw [e]
    by_cases h1 : x.1 = (k : Int)+1
    · simp [h1]
    · simp [h1]

/-- The last link of the equation `i` in a list of links. -/
def lastLink (ls : List (Int × Eqn)) (i : Int) : Option Eqn := (ls.reverse.find? (fun x => x.1 = i)).map (·.2)

theorem lookup_links (nEq : Int) (out : Nat → Res) (i : Int) : ∀ ls : List (Int × Eqn),
    (ls.map fun x => (nEq + x.1, number out x.2)).lookup (nEq + i) = (ls.find? (fun x => x.1 = i)).map fun x => number out x.2
  | [] => rfl
  | x :: ls => by
    rw [List.map_cons, List.lookup_cons, List.find?_cons]
    by_cases h : x.1 = i
    · simp [h]
    · have : ¬ (nEq + i == nEq + x.1) = true := by simp; omega
      simp only [Bool.not_eq_true] at this
      rw [this]
      simp only [h, decide_false]
      exact lookup_links nEq out i ls

theorem lastLink_none (ls : List (Int × Eqn)) (i : Int) : lastLink ls i = none ↔ ∀ x ∈ ls, x.1 ≠ i := by
  unfold lastLink
  simp [List.find?_eq_none]

theorem lastLink_some {ls : List (Int × Eqn)} {i : Int} {b : Eqn} (h : lastLink ls i = some b) : (i, b) ∈ ls := by
  unfold lastLink at h
  obtain ⟨x, hx, rfl⟩ := Option.map_eq_some_iff.1 h
  have h1 := List.mem_of_find?_eq_some hx
  have h2 := List.find?_some hx
  simp only [decide_eq_true_eq] at h2
  subst h2
  simpa using h1

theorem fresh_max (nEq : Int) : ∀ (fl : List Bool) (i : Nat) (s : List (Int × Int) × Int), (fresh nEq fl i s).2 = s.2 + fl.count false
  | [], _, s => by simp [fresh]
  | u :: us, i, s => by
    rw [fresh, fresh_max nEq us]
    cases u
    · simp; omega
    · simp

/-- Entries that are not below the running index are kept. -/
theorem fresh_keep (nEq : Int) : ∀ (fl : List Bool) (i : Nat) (s : List (Int × Int) × Int) (j : Int), j < i → (fresh nEq fl i s).1.lookup (j+nEq) = s.1.lookup (j+nEq)
  | [], _, s, _, _ => rfl
  | u :: us, i, s, j, h => by
    rw [fresh, fresh_keep nEq us (i+1) _ j (by push_cast; omega)]
    cases u
    · have : (j + nEq == (i : Int) + nEq) = false := by simp; omega
      simp [List.lookup_cons, this]
    · simp

theorem fresh_get (nEq : Int) : ∀ (fl : List Bool) (i : Nat) (s : List (Int × Int) × Int) (k : Nat), fl.getD k true = false →
    (fresh nEq fl i s).1.lookup (((i+k : Nat) : Int)+nEq) = some (s.2 + (fl.take (k+1)).count false)
  | [], _, s, k, h => by simp at h
  | u :: us, i, s, 0, h => by
    simp only [List.getD_cons_zero] at h
    subst h
    rw [fresh, Nat.add_zero, fresh_keep nEq us (i+1) _ i (by push_cast; omega)]
    simp
  | u :: us, i, s, k+1, h => by
    simp only [List.getD_cons_succ] at h
    have := fresh_get nEq us (i+1) (if u then s else (((i : Int)+nEq, s.2+1) :: s.1, s.2+1)) k h
    rw [fresh, show i + (k+1) = i+1+k by omega, this]
    cases u
    · simp; omega
    · simp

/-- The numbers of a process, in terms of its links. -/
def eqNumber (nEq : Int) (out : Nat → Res) (ls : List (Int × Eqn)) (fl : List Bool) (i : Int) : Int :=
  match lastLink ls i with
  | some b => number out b
  | none => nEq + (fl.take i.toNat).count false

/-- The numbers that a process ends up with. -/
theorem finish_ok (rank : Nat) (d : Proc) (nEq : Int) (out : Nat → Res) (ls : List (Int × Eqn)) (h0 : rank = 0 → ls = [] ∧ nEq = 0)
    (hl : ∀ x ∈ ls, 1 ≤ x.1) (hn : ∀ x ∈ ls, number out x.2 ≤ nEq) :
    ∃ fl : List Bool, fl.length = d.neq ∧ (∀ k < d.neq, (fl.getD k false = true ↔ ∃ x ∈ ls, x.1 = (k : Int)+1)) ∧
      (finish rank d nEq (ls.foldl (relink nEq out) ([], List.replicate d.neq false))).minEq = nEq+1 ∧
      (finish rank d nEq (ls.foldl (relink nEq out) ([], List.replicate d.neq false))).maxEq = nEq + fl.count false ∧
      (finish rank d nEq (ls.foldl (relink nEq out) ([], List.replicate d.neq false))).mlgeq.length = d.neq ∧
      ∀ i : Int, 1 ≤ i → i ≤ d.neq → (finish rank d nEq (ls.foldl (relink nEq out) ([], List.replicate d.neq false))).mlgeq.getD (i-1).toNat 0 = eqNumber nEq out ls fl i := by
  refine ⟨(ls.foldl (relink nEq out) ([], List.replicate d.neq false)).2, by rw [relinks_length]; simp, ?_, ?_⟩
  · intro k hk
    rw [relinks_flags nEq out ls _ hl k (by simpa using hk)]
    simp [List.getD_eq_getElem?_getD, hk]
  · set rm := ls.foldl (relink nEq out) ([], List.replicate d.neq false) with hrm
    have hfl : ∀ k < d.neq, (rm.2.getD k false = true ↔ ∃ x ∈ ls, x.1 = (k : Int)+1) := by
      intro k hk
      rw [hrm, relinks_flags nEq out ls _ hl k (by simpa using hk)]
      simp [List.getD_eq_getElem?_getD, hk]
    have hlen : rm.2.length = d.neq := by rw [hrm, relinks_length]; simp
    by_cases hr : rank > 0
    · unfold finish
      simp only [hr, if_true]
      refine ⟨trivial, by rw [fresh_max], by simp [iota], ?_⟩
      intro i h1 h2
      have hi : (i-1).toNat < (iota d.neq nEq).length := by simp [iota]; omega
      rw [List.getD_eq_getElem _ _ (by simpa using hi)]
      simp only [List.getElem_map]
      have e := iota_get d.neq nEq i h1 h2
      rw [List.getD_eq_getElem _ _ hi] at e
      rw [e]
      have e1 : renumber rm.1 (nEq + i) = match lastLink ls i with | some b => number out b | none => nEq + i := by
        unfold renumber lastLink
        rw [hrm, relinks_map, List.append_nil, ← List.map_reverse, lookup_links]
        cases ls.reverse.find? (fun x => x.1 = i) <;> rfl
      rw [e1]
      unfold eqNumber
      cases hll : lastLink ls i with
      | some b =>
        simp only
        have hb := hn _ (lastLink_some hll)
        simp only at hb
        unfold renumber
        have := fresh_keep nEq rm.2 1 ([], nEq) (number out b - nEq) (by push_cast; omega)
        rw [show number out b - nEq + nEq = number out b by omega] at this
        rw [this]
        rfl
      | none =>
        simp only
        have hnone := (lastLink_none ls i).1 hll
        have hf : rm.2.getD (i-1).toNat true = false := by
          have : rm.2.getD (i-1).toNat false ≠ true := fun hh => by
            obtain ⟨x, hx, hx2⟩ := (hfl (i-1).toNat (by omega)).1 hh
            exact hnone x hx (by omega)
          have hb : (i-1).toNat < rm.2.length := by omega
          rw [List.getD_eq_getElem _ _ hb] at this ⊢
          simpa using this
        have := fresh_get nEq rm.2 1 ([], nEq) (i-1).toNat hf
        unfold renumber
        rw [show nEq + i = ((1 + (i-1).toNat : Nat) : Int) + nEq by omega, this, show (i-1).toNat+1 = i.toNat by omega]
        rfl
    · obtain ⟨hls, rfl⟩ := h0 (by omega)
      subst hls
      unfold finish
      simp only [hr, if_false]
      have hc : ∀ n, ((List.replicate d.neq false).take n).count false = min n d.neq := by
        intro n
        rw [List.take_replicate, List.count_replicate_self]
      refine ⟨by simp, ?_, by simp [iota], ?_⟩
      · simp [hrm]
      · intro i h1 h2
        rw [iota_get _ _ _ h1 h2]
        unfold eqNumber lastLink
        simp only [List.reverse_nil, List.find?_nil, Option.map_none]
        simp only [hrm, List.foldl_nil, hc]
        omega

end IFEM.DomNum
