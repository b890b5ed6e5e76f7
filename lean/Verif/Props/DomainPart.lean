import Verif.Spec.DomainPart
import Verif.Lemmas.DomainRun

/-! # C66: global equation numbers for a partitioning of the elements -/
namespace IFEM.DomPart
open IFEM.Mpi
open IFEM.DomNum (two two_left two_right two_ne comm_vec comm_int two_int two_vec)

attribute [-simp] Fin.getElem_fin

/-- The value of an entry. -/
def val (ml : List Int) (eq : Int) : Int := ml.getD (eq-1).toNat 0

/-- `s` is the state after the equations in `T` have been numbered, starting from `s0`. -/
structure Inv (neq : Nat) (s0 s : List Int × Int) (T : Int → Prop) : Prop where
  len : s.1.length = neq
  max : s0.2 ≤ s.2
  old : ∀ e : Int, 1 ≤ e → e ≤ neq → val s0.1 e ≠ -1 → val s.1 e = val s0.1 e
  new : ∀ e : Int, 1 ≤ e → e ≤ neq → val s0.1 e = -1 → T e → s0.2 < val s.1 e ∧ val s.1 e ≤ s.2
  none : ∀ e : Int, 1 ≤ e → e ≤ neq → val s0.1 e = -1 → ¬ T e → val s.1 e = -1
  inj : ∀ a b : Int, 1 ≤ a → a ≤ neq → 1 ≤ b → b ≤ neq → s0.2 < val s.1 a → val s.1 a = val s.1 b → a = b
  onto : ∀ g : Int, s0.2 < g → g ≤ s.2 → ∃ e : Int, 1 ≤ e ∧ e ≤ neq ∧ val s.1 e = g

theorem val_set (ml : List Int) (e e' v : Int) (h1 : 1 ≤ e) (h2 : e ≤ ml.length) (h3 : 1 ≤ e') (h4 : e' ≤ ml.length) :
    val (ml.set (e-1).toNat v) e' = if e' = e then v else val ml e' := by
  unfold val
  by_cases h : e' = e
  · subst h
    rw [if_pos rfl, List.getD_eq_getElem _ _ (by simp; omega)]
    simp
  · rw [if_neg h, List.getD_eq_getElem?_getD, List.getElem?_set_ne (by omega), ← List.getD_eq_getElem?_getD]

theorem inv_eq {neq : Nat} {s0 s : List Int × Int} {T : Int → Prop} (h0 : 0 ≤ s0.2) (hb : ∀ e : Int, 1 ≤ e → e ≤ neq → val s0.1 e = -1 ∨ val s0.1 e ≤ s0.2)
    (h : Inv neq s0 s T) (eq : Int) (he : eq ≤ neq) :
    ∃ s', numberEq s eq = some s' ∧ Inv neq s0 s' (fun e => T e ∨ e = eq) := by
  unfold numberEq
  by_cases h1 : eq > 0
  · rw [if_pos h1]
    have hk : (eq-1).toNat < s.1.length := by have := h.len; omega
    have hv : s.1[(eq-1).toNat] = val s.1 eq := by unfold val; rw [List.getD_eq_getElem _ _ hk]
    rw [List.getElem?_eq_getElem hk, Option.bind_some, hv]
    have hbound : ∀ e : Int, 1 ≤ e → e ≤ neq → val s.1 e ≤ s.2 := by
      intro e e1 e2
      by_cases hn : val s0.1 e = -1
      · by_cases hT : T e
        · exact (h.new e e1 e2 hn hT).2
        · rw [h.none e e1 e2 hn hT]; have := h.max; omega
      · rw [h.old e e1 e2 hn]
        rcases hb e e1 e2 with h' | h'
        · exact absurd h' hn
        · exact le_trans h' h.max
    have hne0 : ∀ e : Int, 1 ≤ e → e ≤ neq → val s.1 e = -1 → val s0.1 e = -1 := by
      intro e e1 e2 hh
      by_contra hn
      exact hn ((h.old e e1 e2 hn).symm.trans hh)
    by_cases hv1 : val s.1 eq = -1
    · rw [if_pos hv1]
      have hs : ∀ e : Int, 1 ≤ e → e ≤ neq → val (s.1.set (eq-1).toNat (s.2+1)) e = if e = eq then s.2+1 else val s.1 e := by
        intro e e1 e2
        have hl := h.len
        exact val_set s.1 eq e (s.2+1) (by omega) (by omega) e1 (by omega)
      have hm := h.max
      refine ⟨_, rfl, ?_, ?_, ?_, ?_, ?_, ?_, ?_⟩
      · simp [h.len]
      · simp only; omega
      · intro e e1 e2 hn
        simp only
        rw [hs e e1 e2]
        split
        · rename_i hee
          subst hee
          exact absurd (hne0 e e1 e2 hv1) hn
        · exact h.old e e1 e2 hn
      · intro e e1 e2 hn hT
        simp only
        rw [hs e e1 e2]
        split
        · omega
        · rename_i hee
          have := h.new e e1 e2 hn (by tauto)
          omega
      · intro e e1 e2 hn hT
        simp only
        rw [hs e e1 e2, if_neg (by tauto)]
        exact h.none e e1 e2 hn (by tauto)
      · intro a b a1 a2 b1 b2
        simp only
        rw [hs a a1 a2, hs b b1 b2]
        have ba := hbound a a1 a2
        have bb := hbound b b1 b2
        intro hlt hab
        by_cases ha : a = eq
        · by_cases hb' : b = eq
          · omega
          · rw [if_pos ha, if_neg hb'] at hab
            omega
        · by_cases hb' : b = eq
          · rw [if_neg ha, if_pos hb'] at hab
            omega
          · rw [if_neg ha, if_neg hb'] at hab
            rw [if_neg ha] at hlt
            exact h.inj a b a1 a2 b1 b2 hlt hab
      · intro g g1 g2
        simp only at g2 ⊢
        by_cases hg : g = s.2+1
        · exact ⟨eq, by omega, he, by rw [hs eq (by omega) he, if_pos rfl, hg]⟩
        · obtain ⟨e, e1, e2, e3⟩ := h.onto g g1 (by omega)
          refine ⟨e, e1, e2, ?_⟩
          rw [hs e e1 e2, if_neg, e3]
          rintro rfl
          rw [hv1] at e3
          omega
    · rw [if_neg hv1]
      refine ⟨_, rfl, h.len, h.max, h.old, ?_, ?_, h.inj, h.onto⟩
      · intro e e1 e2 hn hT
        by_cases hTe : T e
        · exact h.new e e1 e2 hn hTe
        · exfalso
          have hee : e = eq := by tauto
          subst hee
          exact hv1 (h.none e e1 e2 hn hTe)
      · intro e e1 e2 hn hT
        exact h.none e e1 e2 hn (by tauto)
  · rw [if_neg h1]
    refine ⟨_, rfl, h.len, h.max, h.old, ?_, ?_, h.inj, h.onto⟩
    · intro e e1 e2 hn hT
      exact h.new e e1 e2 hn (hT.resolve_right (by omega))
    · intro e e1 e2 hn hT
      exact h.none e e1 e2 hn (by tauto)

theorem inv_congr {neq : Nat} {s0 s : List Int × Int} {T T' : Int → Prop} (h : Inv neq s0 s T) (hT : ∀ e, T e ↔ T' e) : Inv neq s0 s T' := by
  have : T = T' := funext fun e => propext (hT e)
  exact this ▸ h

theorem inv_eqs {neq : Nat} {s0 : List Int × Int} (h0 : 0 ≤ s0.2) (hb : ∀ e : Int, 1 ≤ e → e ≤ neq → val s0.1 e = -1 ∨ val s0.1 e ≤ s0.2) :
    ∀ (l : List Int) (s : List Int × Int) (T : Int → Prop), Inv neq s0 s T → (∀ e ∈ l, e ≤ neq) → ∃ s', l.foldlM numberEq s = some s' ∧ Inv neq s0 s' (fun e => T e ∨ e ∈ l)
  | [], s, T, h, _ => ⟨s, rfl, inv_congr h (by simp)⟩
  | x :: l, s, T, h, hl => by
    obtain ⟨s1, h1, h2⟩ := inv_eq h0 hb h x (hl x (by simp))
    obtain ⟨s2, h3, h4⟩ := inv_eqs h0 hb l s1 _ h2 (fun e he => hl e (by simp [he]))
    refine ⟨s2, ?_, inv_congr h4 fun e => by simp [or_assoc]⟩
    rw [List.foldlM_cons, h1]
    exact h3

theorem inv_elms {neq : Nat} {s0 : List Int × Int} (h0 : 0 ≤ s0.2) (hb : ∀ e : Int, 1 ≤ e → e ≤ neq → val s0.1 e = -1 ∨ val s0.1 e ≤ s0.2) (f : Nat → List Int)
    (hf : ∀ iel, ∀ e ∈ f iel, e ≤ neq) :
    ∀ (l : List Nat) (s : List Int × Int) (T : Int → Prop), Inv neq s0 s T → ∃ s', numberElms f l s = some s' ∧ Inv neq s0 s' (fun e => T e ∨ ∃ iel ∈ l, e ∈ f (iel+1))
  | [], s, T, h => ⟨s, rfl, inv_congr h (by simp)⟩
  | x :: l, s, T, h => by
    obtain ⟨s1, h1, h2⟩ := inv_eqs h0 hb (f (x+1)) s T h (hf _)
    obtain ⟨s2, h3, h4⟩ := inv_elms h0 hb f hf l s1 _ h2
    refine ⟨s2, ?_, inv_congr h4 fun e => by simp [or_assoc]⟩
    unfold numberElms at h3 ⊢
    rw [List.foldlM_cons, h1]
    exact h3

/-- What holds when the processes below `q` have numbered their equations. -/
structure Chain (neq : Nat) (f : Nat → List Int) (elms : Nat → List Nat) (mx : Nat → Int) (q : Nat) (ml : List Int) : Prop where
  len : ml.length = neq
  mono : ∀ p < q, mx p ≤ mx (p+1)
  zero : mx 0 = 0
  none : ∀ e : Int, 1 ≤ e → e ≤ neq → ((∀ p < q, ¬ Has f elms p e) ↔ val ml e = -1)
  owner : ∀ p < q, ∀ e : Int, 1 ≤ e → e ≤ neq → Has f elms p e → (∀ p' < p, ¬ Has f elms p' e) → mx p < val ml e ∧ val ml e ≤ mx (p+1)
  bound : ∀ e : Int, 1 ≤ e → e ≤ neq → val ml e = -1 ∨ 0 < val ml e ∧ val ml e ≤ mx q
  inj : ∀ a b : Int, 1 ≤ a → a ≤ neq → 1 ≤ b → b ≤ neq → val ml a = val ml b → val ml a ≠ -1 → a = b
  onto : ∀ g : Int, 0 < g → g ≤ mx q → ∃ e : Int, 1 ≤ e ∧ e ≤ neq ∧ val ml e = g

variable {nproc neq : Nat} {f : Nat → List Int} {elms : Nat → List Nat}

theorem mono_le {mx : Nat → Int} {q : Nat} (h : ∀ p < q, mx p ≤ mx (p+1)) : ∀ p r, p ≤ r → r ≤ q → mx p ≤ mx r := by
  intro p r hp hr
  induction r with
  | zero => have : p = 0 := by omega
            rw [this]
  | succ r ih =>
    by_cases h1 : p = r+1
    · rw [h1]
    · have := ih (by omega) (by omega)
      have := h r (by omega)
      omega

theorem chain_zero (mx : Nat → Int) (h : mx 0 = 0) : Chain neq f elms mx 0 (List.replicate neq (-1)) := by
  have hv : ∀ e : Int, 1 ≤ e → e ≤ neq → val (List.replicate neq (-1)) e = -1 := by
    intro e h1 h2
    unfold val
    rw [List.getD_eq_getElem _ _ (by simp; omega)]
    simp
  refine ⟨by simp, fun p hp => by omega, h, ?_, fun p hp => by omega, ?_, ?_, fun g g1 g2 => by omega⟩
  · intro e h1 h2
    simp [hv e h1 h2]
  · intro e h1 h2
    exact Or.inl (hv e h1 h2)
  · intro a b a1 a2 _ _ _ hn
    exact absurd (hv a a1 a2) hn

/-- The next process numbers its equations. -/
theorem chain_step (hf : ∀ iel, ∀ e ∈ f iel, e ≤ neq) {mx : Nat → Int} {q : Nat} {ml : List Int} (h : Chain neq f elms mx q ml) :
    ∃ s, numberElms f (elms q) (ml, mx q) = some s ∧ Chain neq f elms (upd mx (q+1) s.2) (q+1) s.1 := by
  have h0 : 0 ≤ mx q := by have := mono_le h.mono 0 q (by omega) (le_refl _); rw [h.zero] at this; exact this
  have hbase : Inv neq (ml, mx q) (ml, mx q) (fun _ => False) := by
    refine ⟨h.len, le_refl _, fun _ _ _ _ => rfl, fun _ _ _ _ hh => hh.elim, fun _ _ _ hh _ => hh, ?_, fun g g1 g2 => ?_⟩
    · intro a b a1 a2 b1 b2 hlt hab
      simp only at hlt hab
      exact h.inj a b a1 a2 b1 b2 hab (by omega)
    · simp only at g1 g2; omega
  have hb : ∀ e : Int, 1 ≤ e → e ≤ neq → val ml e = -1 ∨ val ml e ≤ mx q := by
    intro e e1 e2
    rcases h.bound e e1 e2 with h' | h'
    · exact Or.inl h'
    · exact Or.inr h'.2
  obtain ⟨s, h1, h2⟩ := inv_elms (s0 := (ml, mx q)) h0 hb f hf (elms q) (ml, mx q) _ hbase
  have hI := inv_congr h2 (T' := fun e => Has f elms q e) (fun e => by unfold Has; simp)
  clear h2
  have hmx : ∀ p, p ≤ q → upd mx (q+1) s.2 p = mx p := fun p hp => upd_ne _ _ (by omega)
  have hmq : upd mx (q+1) s.2 (q+1) = s.2 := upd_same _ _ _
  have hmax := hI.max
  simp only at hmax
  refine ⟨s, h1, hI.len, ?_, by rw [hmx 0 (by omega), h.zero], ?_, ?_, ?_, ?_, ?_⟩
  · intro p hp
    by_cases hpq : p = q
    · rw [hpq, hmq, hmx q (le_refl _)]; exact hmax
    · rw [hmx p (by omega), hmx (p+1) (by omega)]; exact h.mono p (by omega)
  · intro e e1 e2
    have hn := h.none e e1 e2
    constructor
    · intro hh
      exact hI.none e e1 e2 (hn.1 fun p hp => hh p (by omega)) (hh q (by omega))
    · intro hv p hp hhas
      have ho : val ml e = -1 := by
        by_contra hc
        have := hI.old e e1 e2 hc
        simp only at this
        rw [hv] at this
        exact hc this.symm
      by_cases hpq : p = q
      · subst hpq
        have := (hI.new e e1 e2 ho hhas).1
        simp only at this
        omega
      · exact hn.2 ho p (by omega) hhas
  · intro p hp e e1 e2 hhas hfirst
    by_cases hpq : p = q
    · subst hpq
      have ho := (h.none e e1 e2).1 hfirst
      have := hI.new e e1 e2 ho hhas
      rw [hmq, hmx p (le_refl _)]
      exact this
    · have := h.owner p (by omega) e e1 e2 hhas hfirst
      have hv : val ml e ≠ -1 := fun hc => (h.none e e1 e2).2 hc p (by omega) hhas
      rw [hI.old e e1 e2 hv, hmx p (by omega), hmx (p+1) (by omega)]
      exact this
  · intro e e1 e2
    rw [hmq]
    by_cases hv : val ml e = -1
    · by_cases hh : Has f elms q e
      · have := hI.new e e1 e2 hv hh
        simp only at this
        omega
      · exact Or.inl (hI.none e e1 e2 hv hh)
    · rw [hI.old e e1 e2 hv]
      have := h.bound e e1 e2
      simp only
      omega
  · intro a b a1 a2 b1 b2 hab hn
    by_cases ha : mx q < val s.1 a
    · exact hI.inj a b a1 a2 b1 b2 ha hab
    · have old : ∀ e : Int, 1 ≤ e → e ≤ neq → ¬ mx q < val s.1 e → val s.1 e ≠ -1 → val ml e ≠ -1 := by
        intro e e1 e2 h3 h4 h5
        by_cases hh : Has f elms q e
        · exact h3 (hI.new e e1 e2 h5 hh).1
        · exact h4 (hI.none e e1 e2 h5 hh)
      have va := old a a1 a2 ha hn
      have vb := old b b1 b2 (by rw [← hab]; exact ha) (by rw [← hab]; exact hn)
      rw [hI.old a a1 a2 va, hI.old b b1 b2 vb] at hab
      exact h.inj a b a1 a2 b1 b2 hab va
  · intro g g1 g2
    rw [hmq] at g2
    by_cases hg : mx q < g
    · exact hI.onto g hg g2
    · obtain ⟨e, e1, e2, e3⟩ := h.onto g g1 (by omega)
      refine ⟨e, e1, e2, ?_⟩
      rw [hI.old e e1 e2 (by simp only; omega)]
      exact e3

/-- The inverse map. -/
theorem invert_get (ml : List Int) (hinj : ∀ a b : Int, 1 ≤ a → a ≤ ml.length → 1 ≤ b → b ≤ ml.length → val ml a = val ml b → val ml a ≠ -1 → a = b) (e : Int) (e1 : 1 ≤ e)
    (e2 : e ≤ ml.length) (hn : val ml e ≠ -1) : (invert ml).lookup (val ml e) = some e := by
  unfold invert
  have key : ∀ n, n ≤ ml.length → ((List.range n).foldl (fun m i => if ml.getD i 0 ≠ -1 then (ml.getD i 0, (i : Int)+1) :: m else m) ([] : List (Int × Int))).lookup (val ml e) =
      if e ≤ n then some e else none := by
    intro n
    induction n with
    | zero => intro _; rw [if_neg (by simp; omega)]; rfl
    | succ n ih =>
      intro hle
      have hv : ml.getD n 0 = val ml ((n : Int)+1) := by unfold val; congr 1; omega
      rw [List.range_succ, List.foldl_append]
      simp only [List.foldl_cons, List.foldl_nil]
      rw [hv]
      by_cases h1 : e = (n : Int)+1
      · subst h1
        rw [if_pos hn, List.lookup_cons]
        simp
      · have h2 : ∀ m : List (Int × Int), (if val ml ((n : Int)+1) ≠ -1 then (val ml ((n : Int)+1), (n : Int)+1) :: m else m).lookup (val ml e) = m.lookup (val ml e) := by
          intro m
          split
          · rw [List.lookup_cons]
            have : (val ml e == val ml ((n : Int)+1)) = false := by
              simp only [beq_eq_false_iff_ne, ne_eq]
              intro hc
              exact h1 (hinj e _ e1 e2 (by omega) (by omega) hc hn)
            rw [this]
          · rfl
        rw [h2, ih (by omega)]
        by_cases h3 : e ≤ n
        · rw [if_pos h3, if_pos (by push_cast; omega)]
        · rw [if_neg h3, if_neg (by push_cast; omega)]
  rw [key ml.length (le_refl _), if_pos e2]

/-! ### The messages -/

/-- The state when the processes below `q+1` have numbered their equations, and `q` has not sent anything. -/
theorem chain_run (hf : ∀ iel, ∀ e ∈ f iel, e ≤ neq) : ∀ q < nproc, ∃ N st mx ml, Run SyncStep N (start nproc neq f elms) st ∧ Chain neq f elms mx (q+1) ml ∧
    (∀ r < q, ∃ ml', st r = share nproc r neq (mx r + 1) (mx (r+1)) ml') ∧
    (st q = if q + 1 < nproc then sendVec (q+1) ml (sendInt (q+1) (mx (q+1)) (share nproc q neq (mx q + 1) (mx (q+1)) ml)) else share nproc q neq (mx q + 1) (mx (q+1)) ml) ∧
    ∀ r, q < r → st r = start nproc neq f elms r := by
  intro q
  induction q with
  | zero =>
    intro h
    obtain ⟨s, h1, h2⟩ := chain_step hf (chain_zero (neq := neq) (f := f) (elms := elms) (fun _ => 0) rfl)
    refine ⟨0, _, _, _, Run.refl _, h2, fun r hr => by omega, ?_, fun _ _ => rfl⟩
    unfold start
    rw [if_pos h, calcGlobalEqNumbersPart, if_neg (by simp), body, h1]
    rfl
  | succ q ih =>
    intro hq
    obtain ⟨N, st, mx, ml, h1, h2, h3, h4, h5⟩ := ih (by omega)
    obtain ⟨s, g1, g2⟩ := chain_step hf h2
    rw [if_pos hq] at h4
    have h6 := h5 (q+1) (by omega)
    rw [start, if_pos hq, calcGlobalEqNumbersPart, if_pos (by omega), Nat.add_sub_cancel] at h6
    have hne : q ≠ q+1 := by omega
    obtain ⟨N1, s1⟩ := comm_vec hne h2.len h4 h6
    change Run SyncStep N1 st (two st q (q+1) _ _) at s1
    have s2 := two_int (r := (none : Option Res)) st (mx (q+1)) (share nproc q neq (mx q + 1) (mx (q+1)) ml)
      (fun m => body nproc (q+1) neq f (elms (q+1)) (m+1) m ml) hne
    refine ⟨N+(N1+1), _, upd mx (q+1+1) s.2, s.1, run_trans h1 (run_trans s1 s2), g2, ?_, ?_, ?_⟩
    · intro r hr
      rw [upd_ne _ _ (by omega), upd_ne _ _ (by omega)]
      by_cases h : r = q
      · subst h
        exact ⟨ml, by rw [two_left _ _ _ hne]⟩
      · rw [two_ne _ _ _ h (by omega)]
        exact h3 r (by omega)
    · rw [two_right, body, g1, upd_same, upd_ne _ _ (by omega)]
    · intro r hr
      rw [two_ne _ _ _ (by omega) (by omega)]
      exact h5 r (by omega)

/-- The broadcast. -/
theorem bcast_run {R : Type} {r0 : R} (root n : Nat) (v : List Int) (hv : v.length = n) (k : Prog R) (k' : Nat → List Int → Prog R) : ∀ (qs : List Nat) (st : Nat → Prog R),
    qs.Nodup → (∀ q ∈ qs, q ≠ root) → st root = bcastSend v k qs → (∀ q ∈ qs, st q = bcastRecv r0 root n (k' q)) →
    ∃ N st', Run SyncStep N st st' ∧ st' root = k ∧ (∀ q ∈ qs, st' q = k' q v) ∧ ∀ r, r ≠ root → r ∉ qs → st' r = st r
  | [], st, _, _, h, _ => ⟨0, st, Run.refl _, h, by simp, fun _ _ _ => rfl⟩
  | q :: qs, st, hnd, hr, h, hq => by
    rw [List.nodup_cons] at hnd
    have hne := hr q (by simp)
    have s := SyncStep.comm st root q .bcast v _ _ h (hq q (by simp))
    rw [if_pos hv] at s
    change SyncStep st (two st root q _ _) at s
    obtain ⟨N, st', h1, h2, h3, h4⟩ := bcast_run (r0 := r0) root n v hv k k' qs (two st root q (bcastSend v k qs) (k' q v)) hnd.2 (fun x hx => hr x (by simp [hx]))
      (two_left _ _ _ (Ne.symm hne)) (fun x hx => by
        have hxq : x ≠ q := by rintro rfl; exact hnd.1 hx
        rw [two_ne _ _ _ (hr x (by simp [hx])) hxq]
        exact hq x (by simp [hx]))
    refine ⟨N+1, st', Run.tail s h1, h2, ?_, ?_⟩
    · intro x hx
      rcases List.mem_cons.1 hx with rfl | hx
      · rw [h4 x hne hnd.1, two_right]
      · exact h3 x hx
    · intro r hr1 hr2
      simp only [List.mem_cons, not_or] at hr2
      rw [h4 r hr1 hr2.2, two_ne _ _ _ hr1 hr2.1]

/-- **C66.** For every number of processes, every table of element equations and every distribution of the elements (also if elements belong to several processes, or to none):
all executions end and give the same numbers, which are as they should be (`Numbered`): all processes have the same table, the equations that belong to some element have the
numbers `1` to `N`, each process owns a range of them, and an equation is in the range of the first process that has an element with it. -/
theorem C66_partition_all_schedules (hn : 0 < nproc) (hf : ∀ iel, ∀ e ∈ f iel, e ≤ neq) : ∃ out N, Numbered nproc neq f elms out ∧
    (∀ k st, Run SyncStep k (start nproc neq f elms) st → k ≤ N ∧ Run SyncStep (N-k) st (finished nproc out)) ∧
    (∀ k s, Run BufStep k (start nproc neq f elms, fun _ => []) s → k ≤ 2*N ∧ Run BufStep (2*N-k) s (finished nproc out, fun _ => [])) := by
  obtain ⟨N, st, mx, ml, h1, h2, h3, h4, h5⟩ := chain_run (nproc := nproc) (elms := elms) hf (nproc-1) (by omega)
  have e0 : nproc - 1 + 1 = nproc := by omega
  rw [e0] at h2 h4
  rw [if_neg (by omega), share, if_pos e0] at h4
  obtain ⟨M, st', g1, g2, g3, g4⟩ := bcast_run (r0 := (none : Option Res)) (nproc-1) neq ml h2.len _
    (fun q ml => .done (some ⟨ml, mx q + 1, mx (q+1), invert ml⟩)) (List.range (nproc-1)) st List.nodup_range (by simp; omega) h4 (by
      intro q hq
      simp only [List.mem_range] at hq
      obtain ⟨ml', h6⟩ := h3 q hq
      rw [h6, share, if_neg (by omega)])
  let out : Nat → Res := fun p => ⟨ml, mx p + 1, mx (p+1), invert ml⟩
  have hfin : st' = finished nproc out := by
    funext r
    unfold finished
    by_cases hr : r < nproc
    · rw [if_pos hr]
      by_cases hl : r = nproc-1
      · subst hl
        rw [g2]
        simp only [out, e0]
      · rw [g3 r (by simp; omega)]
    · rw [if_neg hr, g4 r (by omega) (by simp; omega), h5 r (by omega), start, if_neg hr]
  subst hfin
  have hr := run_trans h1 g1
  have hd : ∀ p, ∃ r, finished nproc out p = .done r := by
    intro p
    unfold finished
    split
    · exact ⟨_, rfl⟩
    · exact ⟨_, rfl⟩
  refine ⟨out, N+M, ?_, ?_, ?_⟩
  · refine ⟨fun _ _ _ _ => rfl, fun _ _ => h2.len, ?_, fun _ _ => rfl, ?_, ?_, ?_, ?_, ?_, ?_⟩
    · simp [out, h2.zero]
    · intro p hp
      have := h2.mono p hp
      simp only [out]
      omega
    · intro p hp e e1 e2
      exact h2.none e e1 e2
    · intro p hp q hq e e1 e2 hh hfirst
      have : mx q < number (out p) e ∧ number (out p) e ≤ mx (q+1) := h2.owner q hq e e1 e2 hh hfirst
      simp only [out] at this ⊢
      omega
    · intro p hp a b a1 a2 b1 b2 hab hna
      exact h2.inj a b a1 a2 b1 b2 hab hna
    · intro p hp q hq g q1 q2
      simp only [out] at q1 q2
      have m1 := mono_le h2.mono 0 q (by omega) (by omega)
      have m2 := mono_le h2.mono (q+1) nproc (by omega) (le_refl _)
      rw [h2.zero] at m1
      exact h2.onto g (by omega) (by omega)
    · intro p hp e e1 e2 hne
      have hl := h2.len
      exact invert_get ml (fun a b a1 a2 b1 b2 => h2.inj a b a1 (by omega) b1 (by omega)) e e1 (by omega) hne
  · intro k st h
    exact run_confluent sync_diamond _ _ _ hr (sync_final hd) k st h
  · intro k s h
    exact run_confluent buf_diamond _ _ _ (sync_buf hr) (buf_final _ hd) k s h

/-- Two processes with two elements each, five equations, of which the last belongs to no element. -/
example : ∃ out N, Numbered 2 5 (fun e => if e = 1 then [1, 2] else if e = 2 then [2, 0] else if e = 3 then [4, 2] else []) (fun p => if p = 0 then [1] else [2, 0]) out ∧
    (∀ k st, Run SyncStep k (start 2 5 (fun e => if e = 1 then [1, 2] else if e = 2 then [2, 0] else if e = 3 then [4, 2] else []) (fun p => if p = 0 then [1] else [2, 0])) st →
      k ≤ N ∧ Run SyncStep (N-k) st (finished 2 out)) := by
  obtain ⟨out, N, h1, h2, _⟩ := C66_partition_all_schedules (nproc := 2) (neq := 5) (f := fun e => if e = 1 then [1, 2] else if e = 2 then [2, 0] else if e = 3 then [4, 2] else [])
    (elms := fun p => if p = 0 then [1] else [2, 0]) (by omega) (by
      intro iel e he
      split at he
      · simp at he; omega
      · split at he
        · simp at he; omega
        · split at he
          · simp at he; omega
          · cases he)
  exact ⟨out, N, h1, h2⟩

end IFEM.DomPart
