import Verif.Props.Mpc
import Mathlib.Algebra.Ring.Subring.Basic
/-!
# C18: resolving of chained constraints
-/
namespace IFEM.Props
open IFEM.Spec

variable {K : Type} [Field K] [LinearOrder K]

theorem isSlave_iff (H : List (Mpc K)) (k : Int × Int) : IsSlave H k ↔ k ∈ H.map Mpc.key := by
  simp only [IsSlave, List.mem_map, Mpc.key]

theorem isSlave_congr {H H' : List (Mpc K)} (h : H'.map Mpc.key = H.map Mpc.key) (k : Int × Int) : IsSlave H' k ↔ IsSlave H k := by
  rw [isSlave_iff, isSlave_iff, h]

theorem findSlave_none (k : Int × Int) (H : List (Mpc K)) : findSlave k H = none ↔ ¬ IsSlave H k := by
  unfold findSlave IsSlave
  rw [List.find?_eq_none]
  constructor
  · rintro h ⟨m, hm, e⟩
    exact h m hm (decide_eq_true e)
  · intro h m hm e
    exact h ⟨m, hm, of_decide_eq_true e⟩

theorem findSlave_mem (k : Int × Int) (H : List (Mpc K)) (m : Mpc K) (h : findSlave k H = some m) : m ∈ H ∧ m.key = k :=
  ⟨List.mem_of_find?_eq_some h, by simpa using List.find?_some h⟩

theorem unique_eq (H : List (Mpc K)) (hu : (H.map Mpc.key).Nodup) (a b : Mpc K) (ha : a ∈ H) (hb : b ∈ H) (h : a.key = b.key) : a = b :=
  List.inj_on_of_nodup_map hu ha hb h

theorem findSlave_some (k : Int × Int) (H : List (Mpc K)) (hu : (H.map Mpc.key).Nodup) (m : Mpc K) :
    findSlave k H = some m ↔ m ∈ H ∧ m.key = k := by
  constructor
  · exact findSlave_mem k H m
  · rintro ⟨h1, h2⟩
    cases hf : findSlave k H with
    | none => exact absurd ⟨m, h1, h2⟩ ((findSlave_none k H).mp hf)
    | some x =>
      obtain ⟨a, b⟩ := findSlave_mem k H x hf
      rw [unique_eq H hu x m a h1 (b.trans h2.symm)]

theorem storeMpc_keys (m : Mpc K) (H : List (Mpc K)) : (storeMpc m H).map Mpc.key = H.map Mpc.key := by
  unfold storeMpc
  rw [List.map_map]
  apply List.map_congr_left
  intro x _
  simp only [Function.comp]
  split
  · rename_i h; exact h.symm
  · rfl

theorem mem_storeMpc (m : Mpc K) (H : List (Mpc K)) (x : Mpc K) :
    x ∈ storeMpc m H ↔ (x ∈ H ∧ x.key ≠ m.key) ∨ (x = m ∧ IsSlave H m.key) := by
  unfold storeMpc
  rw [List.mem_map]
  constructor
  · rintro ⟨y, hy, e⟩
    by_cases h : y.key = m.key
    · rw [if_pos h] at e; exact Or.inr ⟨e.symm, y, hy, h⟩
    · rw [if_neg h] at e; subst e; exact Or.inl ⟨hy, h⟩
  · rintro (⟨h1, h2⟩ | ⟨rfl, y, hy, h⟩)
    · exact ⟨x, h1, if_neg h2⟩
    · exact ⟨y, hy, if_pos h⟩

/-! ## Substitution -/

/-- Coefficients where none but zero is within the tolerance of zero. -/
def ExactCoeffs (tol : K) (S : Subring K) : Prop := ∀ c ∈ S, -tol ≤ c → c ≤ tol → c = 0

theorem addMaster_sum (tol : K) (S : Subring K) (hS : ExactCoeffs tol S) (m : Mpc K) (t : MTerm K) (ht : t.coeff ∈ S) (u : Int × Int → K) :
    masterSum u (m.addMaster tol t).master = masterSum u m.master + t.coeff * u t.key := by
  unfold Mpc.addMaster
  split
  · rename_i h
    rw [hS _ ht h.1 h.2]; simp
  · exact masterSum_addTerm u t m.master

theorem addTerm_coeffs (S : Subring K) (t : MTerm K) (l : List (MTerm K)) (ht : t.coeff ∈ S) (h : ∀ x ∈ l, x.coeff ∈ S) : ∀ x ∈ addTerm t l, x.coeff ∈ S := by
  induction l with
  | nil => intro x hx; simp only [addTerm, List.mem_singleton] at hx; rw [hx]; exact ht
  | cons y ys ih =>
    intro x hx
    rw [addTerm] at hx
    split at hx
    · rcases List.mem_cons.mp hx with rfl | hx
      · exact S.add_mem (h y (by simp)) ht
      · exact h x (List.mem_cons_of_mem _ hx)
    · rcases List.mem_cons.mp hx with rfl | hx
      · exact h x (by simp)
      · exact ih (fun z hz => h z (List.mem_cons_of_mem _ hz)) x hx

/-- The keys after adding masters: the old ones, followed by keys of masters added. -/
theorem addMasters_keys (tol : K) (ts : List (MTerm K)) (m : Mpc K) :
    ∃ new, (ts.foldl (fun m t => m.addMaster tol t) m).master.map MTerm.key = m.master.map MTerm.key ++ new ∧ ∀ k ∈ new, k ∈ ts.map MTerm.key := by
  induction ts generalizing m with
  | nil => exact ⟨[], by simp⟩
  | cons t ts ih =>
    rw [List.foldl_cons]
    obtain ⟨new, h1, h2⟩ := ih (m.addMaster tol t)
    rw [h1]
    unfold Mpc.addMaster
    split
    · exact ⟨new, rfl, fun k hk => List.mem_cons_of_mem _ (h2 k hk)⟩
    · dsimp only
      rw [addTerm_keys]
      split
      · exact ⟨new, rfl, fun k hk => List.mem_cons_of_mem _ (h2 k hk)⟩
      · refine ⟨t.key :: new, by simp, fun k hk => ?_⟩
        rcases List.mem_cons.mp hk with rfl | hk
        · simp
        · exact List.mem_cons_of_mem _ (h2 k hk)

theorem addMasters_spec (tol : K) (S : Subring K) (hS : ExactCoeffs tol S) (ts : List (MTerm K)) (hts : ∀ t ∈ ts, t.coeff ∈ S) (m : Mpc K) (hm : ∀ t ∈ m.master, t.coeff ∈ S) :
    let m' := ts.foldl (fun m t => m.addMaster tol t) m
    m'.key = m.key ∧ m'.c0 = m.c0 ∧ (∀ t ∈ m'.master, t.coeff ∈ S) ∧ ∀ u, masterSum u m'.master = masterSum u m.master + masterSum u ts := by
  induction ts generalizing m with
  | nil => exact ⟨rfl, rfl, hm, fun u => by simp [masterSum]⟩
  | cons t ts ih =>
    rw [List.foldl_cons]
    have ht := hts t (by simp)
    have hm' : ∀ x ∈ (m.addMaster tol t).master, x.coeff ∈ S := by
      unfold Mpc.addMaster
      split
      · exact hm
      · exact addTerm_coeffs S t m.master ht hm
    obtain ⟨h1, h2, h3, h4⟩ := ih (fun x hx => hts x (List.mem_cons_of_mem _ hx)) (m.addMaster tol t) hm'
    have e1 : (m.addMaster tol t).key = m.key := by unfold Mpc.addMaster; split <;> rfl
    have e2 : (m.addMaster tol t).c0 = m.c0 := by unfold Mpc.addMaster; split <;> rfl
    refine ⟨h1.trans e1, h2.trans e2, h3, fun u => ?_⟩
    rw [h4 u, addMaster_sum tol S hS m t ht u]
    simp only [masterSum, List.map_cons, List.sum_cons, MTerm.key]
    ring

theorem substMaster_eq (tol : K) (m : Mpc K) (i : Nat) (coeff : K) (c : Mpc K) :
    substMaster tol m i coeff c = (c.master.map fun t => (⟨t.node, t.dof, t.coeff * coeff, false⟩ : MTerm K)).foldl (fun m t => m.addMaster tol t) ((m.removeMaster i).addOffset (coeff * c.c0)) := by
  rw [substMaster, List.foldl_map]

theorem mem_eraseIdx (l : List (MTerm K)) (i : Nat) (x : MTerm K) (h : x ∈ l.eraseIdx i) : x ∈ l := List.mem_of_mem_eraseIdx h

theorem subst_spec (tol : K) (S : Subring K) (hS : ExactCoeffs tol S) (m c : Mpc K) (i : Nat) (t : MTerm K) (ht : m.master[i]? = some t)
    (hm : ∀ t ∈ m.master, t.coeff ∈ S) (hc : ∀ t ∈ c.master, t.coeff ∈ S) :
    (substMaster tol m i t.coeff c).key = m.key ∧
    (∀ x ∈ (substMaster tol m i t.coeff c).master, x.coeff ∈ S) ∧
    (∀ u, Holds c u → c.key = t.key → (substMaster tol m i t.coeff c).c0 + masterSum u (substMaster tol m i t.coeff c).master = m.c0 + masterSum u m.master) ∧
    (∃ new, (substMaster tol m i t.coeff c).master.map MTerm.key = (m.master.map MTerm.key).eraseIdx i ++ new ∧ ∀ k ∈ new, k ∈ c.master.map MTerm.key) := by
  have htS : t.coeff ∈ S := hm t (List.mem_of_getElem? ht)
  have h1 : ∀ x ∈ c.master.map fun x => (⟨x.node, x.dof, x.coeff * t.coeff, false⟩ : MTerm K), x.coeff ∈ S := by
    intro x hx
    obtain ⟨y, hy, rfl⟩ := List.mem_map.mp hx
    exact S.mul_mem (hc y hy) htS
  have h2 : ∀ x ∈ ((m.removeMaster i).addOffset (t.coeff * c.c0)).master, x.coeff ∈ S := fun x hx => hm x (mem_eraseIdx _ _ _ hx)
  obtain ⟨a1, a2, a3, a4⟩ := addMasters_spec tol S hS _ h1 _ h2
  rw [substMaster_eq]
  refine ⟨a1, a3, fun u hu hk => ?_, ?_⟩
  · rw [a2, a4 u]
    have e1 : ((m.removeMaster i).addOffset (t.coeff * c.c0)).c0 = m.c0 + t.coeff * c.c0 := rfl
    have e2 : ((m.removeMaster i).addOffset (t.coeff * c.c0)).master = (m.removeMaster i).master := rfl
    have e3 := (C17_update m i t ht 0 u).1
    have e4 : masterSum u (c.master.map fun x => (⟨x.node, x.dof, x.coeff * t.coeff, false⟩ : MTerm K)) = t.coeff * masterSum u c.master := by
      unfold masterSum
      rw [List.map_map]
      generalize c.master = l
      induction l with
      | nil => simp
      | cons x xs ih => simp only [List.map_cons, List.sum_cons, Function.comp] at ih ⊢; rw [ih]; ring
    have e5 : u (t.node, t.dof) = c.c0 + masterSum u c.master := by
      have : u (c.node, c.dof) = _ := hu
      rw [← this]; exact congrArg u hk.symm
    rw [e1, e2, e4, ← e3, e5]; ring
  · obtain ⟨new, b1, b2⟩ := addMasters_keys tol (c.master.map fun x => (⟨x.node, x.dof, x.coeff * t.coeff, false⟩ : MTerm K)) ((m.removeMaster i).addOffset (t.coeff * c.c0))
    refine ⟨new, ?_, fun k hk => ?_⟩
    · rw [b1]
      show ((m.master.eraseIdx i).map MTerm.key) ++ new = _
      rw [List.eraseIdx_map]
    · have := b2 k hk
      rw [List.map_map] at this
      exact this

/-! ## The invariant -/

/-- Unique slaves, ranked chains, and coefficients in `S`. -/
structure GoodSet (r : Int × Int → Nat) (S : Subring K) (H : List (Mpc K)) : Prop where
  uniq : (H.map Mpc.key).Nodup
  rank : ∀ m ∈ H, ∀ t ∈ m.master, IsSlave H t.key → r t.key < r m.key
  coef : ∀ m ∈ H, ∀ t ∈ m.master, t.coeff ∈ S

/-- The effect of resolving: `P` tells which constraint may be in an intermediate state. -/
structure Resolves (r : Int × Int → Nat) (S : Subring K) (P : Int × Int → Prop) (k : Int × Int) (H H' : List (Mpc K)) : Prop where
  keys : H'.map Mpc.key = H.map Mpc.key
  good : GoodSet r S H'
  same : ∀ k2 m, findSlave k2 H = some m → findSlave k2 H' = some m ∨ (r k2 ≤ r k ∧ ∃ m', findSlave k2 H' = some m' ∧ (P k2 ∨ Unchained H' m'))
  sat  : ∀ u, HoldAll H u ↔ HoldAll H' u

theorem unchained_congr {H H' : List (Mpc K)} (h : H'.map Mpc.key = H.map Mpc.key) {m : Mpc K} (hm : Unchained H m) : Unchained H' m :=
  fun t ht hs => hm t ht ((isSlave_congr h _).mp hs)

theorem Resolves.refl (r : Int × Int → Nat) (S : Subring K) (P : Int × Int → Prop) (k : Int × Int) (H : List (Mpc K)) (h : GoodSet r S H) : Resolves r S P k H H :=
  ⟨rfl, h, fun _ _ h => Or.inl h, fun _ => Iff.rfl⟩

theorem Resolves.trans {r : Int × Int → Nat} {S : Subring K} {P : Int × Int → Prop} {k k1 k2 : Int × Int} {H H1 H2 : List (Mpc K)}
    (h1 : Resolves r S P k1 H H1) (h2 : Resolves r S P k2 H1 H2) (l1 : r k1 ≤ r k) (l2 : r k2 ≤ r k) : Resolves r S P k H H2 := by
  refine ⟨h2.keys.trans h1.keys, h2.good, fun q m hq => ?_, fun u => (h1.sat u).trans (h2.sat u)⟩
  rcases h1.same q m hq with e1 | ⟨a, m1, e1, c1⟩
  · rcases h2.same q m e1 with e2 | ⟨b, m2, e2, c2⟩
    · exact Or.inl e2
    · exact Or.inr ⟨le_trans b l2, m2, e2, c2⟩
  · rcases h2.same q m1 e1 with e2 | ⟨b, m2, e2, c2⟩
    · exact Or.inr ⟨le_trans a l1, m1, e2, c1.imp id (fun c => unchained_congr h2.keys c)⟩
    · exact Or.inr ⟨le_trans b l2, m2, e2, c2⟩

theorem Resolves.mono {r : Int × Int → Nat} {S : Subring K} {P Q : Int × Int → Prop} {k : Int × Int} {H H1 : List (Mpc K)}
    (h1 : Resolves r S P k H H1) (h : ∀ x, P x → Q x) : Resolves r S Q k H H1 :=
  ⟨h1.keys, h1.good, fun q m hq => (h1.same q m hq).imp id (fun ⟨a, m', b, c⟩ => ⟨a, m', b, c.imp (h q) id⟩), h1.sat⟩

/-- One substitution. -/
theorem subst_resolves (tol : K) (r : Int × Int → Nat) (S : Subring K) (hS : ExactCoeffs tol S) (k : Int × Int) (H : List (Mpc K)) (hg : GoodSet r S H)
    (m c : Mpc K) (i : Nat) (t : MTerm K) (hm : findSlave k H = some m) (hc : findSlave t.key H = some c) (hcu : Unchained H c) (ht : m.master[i]? = some t) :
    Resolves r S (· = k) k H (storeMpc (substMaster tol m i t.coeff c) H) := by
  obtain ⟨mH, mk⟩ := findSlave_mem k H m hm
  obtain ⟨cH, ck⟩ := findSlave_mem t.key H c hc
  have htm : t ∈ m.master := List.mem_of_getElem? ht
  obtain ⟨s1, s2, s3, new, s4, s5⟩ := subst_spec tol S hS m c i t ht (hg.coef m mH) (hg.coef c cH)
  have hlt : r t.key < r k := by rw [← mk]; exact hg.rank m mH t htm ⟨c, cH, ck⟩
  have hck : c.key ≠ k := by intro e; rw [← ck, e] at hlt; exact lt_irrefl _ hlt
  generalize hs' : substMaster tol m i t.coeff c = m' at s1 s2 s3 s4
  have hkeys := storeMpc_keys m' H
  have hslave : IsSlave H m'.key := ⟨m, mH, s1.symm⟩
  have hmem := mem_storeMpc m' H
  have huniq : ((storeMpc m' H).map Mpc.key).Nodup := by rw [hkeys]; exact hg.uniq
  have hm'mem : m' ∈ storeMpc m' H := (hmem m').mpr (Or.inr ⟨rfl, hslave⟩)
  have hmk : m'.key = k := s1.trans mk
  refine ⟨hkeys, ⟨huniq, ?_, ?_⟩, ?_, ?_⟩
  · intro x hx t' ht' hsl
    rw [isSlave_congr hkeys] at hsl
    rcases (hmem x).mp hx with ⟨hx, -⟩ | ⟨rfl, -⟩
    · exact hg.rank x hx t' ht' hsl
    · have hk' : t'.key ∈ x.master.map MTerm.key := List.mem_map_of_mem ht'
      rw [s4] at hk'
      rcases List.mem_append.mp hk' with h | h
      · obtain ⟨t2, ht2, e2⟩ := List.mem_map.mp (List.mem_of_mem_eraseIdx h)
        rw [← e2] at hsl ⊢
        rw [s1]
        exact hg.rank m mH t2 ht2 hsl
      · obtain ⟨t2, ht2, e2⟩ := List.mem_map.mp (s5 _ h)
        rw [← e2] at hsl
        exact absurd hsl (hcu t2 ht2)
  · intro x hx
    rcases (hmem x).mp hx with ⟨hx, -⟩ | ⟨rfl, -⟩
    · exact hg.coef x hx
    · exact s2
  · intro k2 x hx
    obtain ⟨xH, xk⟩ := findSlave_mem k2 H x hx
    by_cases h : k2 = k
    · exact Or.inr ⟨le_of_eq (by rw [h]), m', (findSlave_some k2 _ huniq m').mpr ⟨hm'mem, by rw [h]; exact hmk⟩, Or.inl h⟩
    · refine Or.inl ((findSlave_some k2 _ huniq x).mpr ⟨(hmem x).mpr (Or.inl ⟨xH, ?_⟩), xk⟩)
      rw [xk, hmk]; exact h
  · intro u
    have hcm : c ∈ storeMpc m' H := (hmem c).mpr (Or.inl ⟨cH, by rw [hmk]; exact hck⟩)
    have hkk : (m'.node, m'.dof) = (m.node, m.dof) := s1
    constructor
    · intro hu x hx
      rcases (hmem x).mp hx with ⟨hx, -⟩ | ⟨rfl, -⟩
      · exact hu x hx
      · have : u (m.node, m.dof) = _ := hu m mH
        show u (x.node, x.dof) = _
        rw [s3 u (hu c cH) ck, hkk, this]
    · intro hu x hx
      by_cases h : x.key = m'.key
      · have : x = m := unique_eq H hg.uniq x m hx mH (h.trans s1)
        subst this
        have : u (m'.node, m'.dof) = _ := hu m' hm'mem
        show u (x.node, x.dof) = _
        rw [← hkk, this, s3 u (hu c hcm) ck]
      · exact hu x ((hmem x).mpr (Or.inl ⟨hx, h⟩))

/-! ## The recursion -/

/-- Postcondition of resolving the constraint with slave `k`. -/
def Resolved (r : Int × Int → Nat) (S : Subring K) (k : Int × Int) (H H' : List (Mpc K)) : Prop :=
  Resolves r S (fun _ => False) k H H' ∧ ∀ m', findSlave k H' = some m' → Unchained H' m'

theorem findSlave_isSome_congr {H H' : List (Mpc K)} (h : H'.map Mpc.key = H.map Mpc.key) (k : Int × Int) :
    findSlave k H' = none ↔ findSlave k H = none := by
  rw [findSlave_none, findSlave_none, isSlave_congr h]

theorem resolveLoop_spec (tol : K) (r : Int × Int → Nat) (S : Subring K) (hS : ExactCoeffs tol S) (rec : Int × Int → List (Mpc K) → Option (List (Mpc K)))
    (k : Int × Int) (hrec : ∀ k' H H', r k' < r k → GoodSet r S H → rec k' H = some H' → Resolved r S k' H H')
    (n i : Nat) (H H' : List (Mpc K)) (hg : GoodSet r S H)
    (hpre : ∀ m, findSlave k H = some m → ∀ x ∈ (m.master.map MTerm.key).take i, ¬ IsSlave H x)
    (h : resolveLoop tol rec n k i H = some H') :
    Resolves r S (· = k) k H H' ∧ ∀ m', findSlave k H' = some m' → Unchained H' m' := by
  induction n generalizing i H with
  | zero => simp [resolveLoop] at h
  | succ n ih =>
    rw [resolveLoop] at h
    cases hm : findSlave k H with
    | none => rw [hm] at h; simp at h
    | some m =>
      rw [hm] at h
      dsimp only at h
      cases ht : m.master[i]? with
      | none =>
        rw [ht] at h
        simp only [Option.some.injEq] at h
        subst h
        refine ⟨Resolves.refl r S _ k H hg, fun m' hm' => ?_⟩
        rw [hm] at hm'
        simp only [Option.some.injEq] at hm'
        subst hm'
        intro t ht'
        have hl : m.master.length ≤ i := by rw [List.getElem?_eq_none_iff] at ht; exact ht
        refine hpre m hm t.key ?_
        rw [List.take_of_length_le (by simpa using hl)]
        exact List.mem_map_of_mem ht'
      | some t =>
        rw [ht] at h
        dsimp only at h
        have htl := (List.getElem?_eq_some_iff.mp ht).1
        cases hc : findSlave t.key H with
        | none =>
          rw [hc] at h
          dsimp only at h
          refine ih (i+1) H hg ?_ h
          intro m' hm' x hx
          rw [hm] at hm'
          simp only [Option.some.injEq] at hm'
          subst hm'
          rw [List.take_succ] at hx
          rcases List.mem_append.mp hx with hx | hx
          · exact hpre m hm x hx
          · rw [List.getElem?_map, ht] at hx
            simp only [Option.map_some, Option.toList_some, List.mem_singleton] at hx
            rw [hx]
            exact (findSlave_none _ _).mp hc
        | some c0 =>
          rw [hc] at h
          dsimp only at h
          obtain ⟨mH, mk⟩ := findSlave_mem k H m hm
          obtain ⟨c0H, c0k⟩ := findSlave_mem _ H c0 hc
          have hlt : r t.key < r k := by rw [← mk]; exact hg.rank m mH t (List.mem_of_getElem? ht) ⟨c0, c0H, c0k⟩
          cases hr : rec t.key H with
          | none => rw [hr] at h; simp at h
          | some H1 =>
            rw [hr] at h
            dsimp only at h
            obtain ⟨r1, r2⟩ := hrec t.key H H1 hlt hg hr
            have hm1 : findSlave k H1 = some m := by
              rcases r1.same k m hm with e | ⟨e, -⟩
              · exact e
              · omega
            rw [hm1] at h
            cases hc1 : findSlave t.key H1 with
            | none => rw [hc1] at h; simp at h
            | some c =>
              rw [hc1] at h
              dsimp only at h
              rw [ht] at h
              dsimp only at h
              have hcu := r2 c hc1
              have q := subst_resolves tol r S hS k H1 r1.good m c i t hm1 hc1 hcu ht
              have hrest := ih i _ q.good ?_ h
              · refine ⟨?_, hrest.2⟩
                refine (r1.mono (Q := (· = k)) (fun x hx => hx.elim)).trans (q.trans hrest.1 le_rfl le_rfl) (le_of_lt hlt) le_rfl
              · intro m' hm' x hx
                obtain ⟨-, -, -, new, s4, -⟩ := subst_spec tol S hS m c i t ht (hg.coef m mH) (r1.good.coef c (findSlave_mem _ _ _ hc1).1)
                have hm'' : findSlave k (storeMpc (substMaster tol m i t.coeff c) H1) = some (substMaster tol m i t.coeff c) := by
                  have s1 := (subst_spec tol S hS m c i t ht (hg.coef m mH) (r1.good.coef c (findSlave_mem _ _ _ hc1).1)).1
                  refine (findSlave_some k _ q.good.uniq _).mpr ⟨(mem_storeMpc _ _ _).mpr (Or.inr ⟨rfl, ?_⟩), s1.trans mk⟩
                  rw [s1]
                  exact ⟨m, (findSlave_mem _ _ _ hm1).1, rfl⟩
                rw [hm''] at hm'
                simp only [Option.some.injEq] at hm'
                subst hm'
                rw [isSlave_congr q.keys, isSlave_congr r1.keys]
                refine hpre m hm x ?_
                rw [s4, List.take_append_of_le_length (by rw [List.length_eraseIdx_of_lt (by simpa using htl)]; simp; omega)] at hx
                rw [List.take_eraseIdx_eq_take_of_le _ _ _ le_rfl] at hx
                exact hx

theorem resolveMpc_spec (tol : K) (r : Int × Int → Nat) (S : Subring K) (hS : ExactCoeffs tol S) (n d : Nat) (k : Int × Int) (H H' : List (Mpc K)) (hg : GoodSet r S H)
    (h : resolveMpc tol n d k H = some H') : Resolved r S k H H' := by
  induction d generalizing k H H' with
  | zero => simp [resolveMpc] at h
  | succ d ih =>
    rw [resolveMpc] at h
    obtain ⟨h1, h2⟩ := resolveLoop_spec tol r S hS (resolveMpc tol n d) k (fun k' H H' _ hg h => ih k' H H' hg h) n 0 H H' hg (by intro m _ x hx; simp at hx) h
    refine ⟨⟨h1.keys, h1.good, fun q m hq => ?_, h1.sat⟩, h2⟩
    rcases h1.same q m hq with e | ⟨a, m', b, c⟩
    · exact Or.inl e
    · refine Or.inr ⟨a, m', b, Or.inr ?_⟩
      rcases c with rfl | c
      · exact h2 m' b
      · exact c

theorem resolveAll_spec (tol : K) (r : Int × Int → Nat) (S : Subring K) (hS : ExactCoeffs tol S) (n d : Nat) (ks : List (Int × Int)) (H H' : List (Mpc K)) (hg : GoodSet r S H)
    (h : resolveAll tol n d ks H = some H') :
    H'.map Mpc.key = H.map Mpc.key ∧ GoodSet r S H' ∧ (∀ u, HoldAll H u ↔ HoldAll H' u) ∧
    (∀ m, findSlave m.key H = some m → Unchained H m → ∀ m', findSlave m.key H' = some m' → Unchained H' m') ∧
    (∀ k ∈ ks, ∀ m', findSlave k H' = some m' → Unchained H' m') := by
  induction ks generalizing H with
  | nil =>
    simp only [resolveAll, Option.some.injEq] at h
    subst h
    refine ⟨rfl, hg, fun _ => Iff.rfl, fun m hm hu m' hm' => ?_, by simp⟩
    rw [hm] at hm'; simp only [Option.some.injEq] at hm'; exact hm' ▸ hu
  | cons k ks ih =>
    rw [resolveAll] at h
    cases hr : resolveMpc tol n d k H with
    | none => rw [hr] at h; simp at h
    | some H1 =>
      rw [hr] at h
      obtain ⟨r1, r2⟩ := resolveMpc_spec tol r S hS n d k H H1 hg hr
      obtain ⟨i1, i2, i3, i4, i5⟩ := ih H1 r1.good h
      refine ⟨i1.trans r1.keys, i2, fun u => (r1.sat u).trans (i3 u), ?_, ?_⟩
      · intro m hm hu m' hm'
        rcases r1.same _ m hm with e | ⟨-, m1, e, c⟩
        · exact i4 m e (unchained_congr r1.keys hu) m' hm'
        · have hk := (findSlave_mem _ _ _ e).2
          rw [← hk] at e hm'
          exact i4 m1 e (c.elim False.elim id) m' hm'
      · intro q hq m' hm'
        rcases List.mem_cons.mp hq with rfl | hq
        · cases e : findSlave q H1 with
          | none =>
            have := (findSlave_isSome_congr i1 q).mpr e
            rw [this] at hm'; simp at hm'
          | some m1 =>
            have hk := (findSlave_mem _ _ _ e).2
            have hu := r2 m1 e
            rw [← hk] at e hm'
            exact i4 m1 e hu m' hm'
        · exact i5 q hq m' hm'

/-! ## Termination -/

theorem resolveLoop_mono (tol : K) (rec rec' : Int × Int → List (Mpc K) → Option (List (Mpc K))) (hrec : ∀ k H H', rec k H = some H' → rec' k H = some H')
    (n n' : Nat) (hn : n ≤ n') (k : Int × Int) (i : Nat) (H H' : List (Mpc K)) (h : resolveLoop tol rec n k i H = some H') :
    resolveLoop tol rec' n' k i H = some H' := by
  induction n generalizing n' i H with
  | zero => simp [resolveLoop] at h
  | succ n ih =>
    obtain ⟨n', rfl⟩ : ∃ q, n' = q + 1 := ⟨n' - 1, by omega⟩
    rw [resolveLoop] at h ⊢
    cases hm : findSlave k H with
    | none => rw [hm] at h; simp at h
    | some m =>
      rw [hm] at h
      dsimp only at h ⊢
      cases ht : m.master[i]? with
      | none => rw [ht] at h; exact h
      | some t =>
        rw [ht] at h
        dsimp only at h ⊢
        cases hc : findSlave t.key H with
        | none => rw [hc] at h; exact ih n' (by omega) _ _ h
        | some c0 =>
          rw [hc] at h
          dsimp only at h ⊢
          cases hr : rec t.key H with
          | none => rw [hr] at h; simp at h
          | some H1 =>
            rw [hr] at h
            rw [hrec _ _ _ hr]
            dsimp only at h ⊢
            split at h
            · split at h
              · simp at h
              · exact ih n' (by omega) _ _ h
            · simp at h

theorem resolveMpc_mono (tol : K) (n n' : Nat) (hn : n ≤ n') (d d' : Nat) (hd : d ≤ d') (k : Int × Int) (H H' : List (Mpc K)) (h : resolveMpc tol n d k H = some H') :
    resolveMpc tol n' d' k H = some H' := by
  induction d generalizing d' k H H' with
  | zero => simp [resolveMpc] at h
  | succ d ih =>
    obtain ⟨d', rfl⟩ : ∃ q, d' = q + 1 := ⟨d' - 1, by omega⟩
    rw [resolveMpc] at h ⊢
    exact resolveLoop_mono tol _ _ (fun k H H' h => ih d' (by omega) k H H' h) n n' hn k 0 H H' h

/-- Number of chained masters from position `i` on. -/
def chainedFrom (H : List (Mpc K)) (m : Mpc K) (i : Nat) : Nat :=
  ((m.master.map MTerm.key).drop i).countP fun k => (findSlave k H).isSome

theorem resolveLoop_total (tol : K) (r : Int × Int → Nat) (S : Subring K) (hS : ExactCoeffs tol S) (k : Int × Int)
    (hrec : ∀ k' H, r k' < r k → GoodSet r S H → IsSlave H k' → ∃ n d H', resolveMpc tol n d k' H = some H')
    (i : Nat) (H : List (Mpc K)) (hg : GoodSet r S H) (m : Mpc K) (hm : findSlave k H = some m) :
    ∃ n d H', resolveLoop tol (resolveMpc tol n d) n k i H = some H' := by
  suffices ∀ (p : Nat ×ₗ Nat) (i : Nat) (H : List (Mpc K)) (m : Mpc K), toLex (chainedFrom H m i, m.master.length - i) = p → GoodSet r S H → findSlave k H = some m →
      ∃ n d H', resolveLoop tol (resolveMpc tol n d) n k i H = some H' from this _ i H m rfl hg hm
  intro p
  induction p using WellFoundedLT.induction with
  | _ p ih =>
    intro i H m hp hg hm
    cases ht : m.master[i]? with
    | none =>
      refine ⟨1, 0, H, ?_⟩
      rw [resolveLoop, hm]
      dsimp only
      rw [ht]
    | some t =>
      have htl := (List.getElem?_eq_some_iff.mp ht).1
      have hdrop : (m.master.map MTerm.key).drop i = t.key :: (m.master.map MTerm.key).drop (i+1) := by
        rw [List.drop_eq_getElem_cons (by simpa using htl)]
        congr 1
        rw [List.getElem_map, (List.getElem?_eq_some_iff.mp ht).2]
      cases hc : findSlave t.key H with
      | none =>
        have hlt : toLex (chainedFrom H m (i+1), m.master.length - (i+1)) < p := by
          rw [← hp, Prod.Lex.toLex_lt_toLex]
          right
          refine ⟨?_, by dsimp only; omega⟩
          simp only [chainedFrom, hdrop]
          rw [List.countP_cons_of_neg (by rw [hc]; simp)]
        obtain ⟨n, d, H', h⟩ := ih _ hlt (i+1) H m rfl hg hm
        refine ⟨n+1, d, H', ?_⟩
        rw [resolveLoop, hm]
        dsimp only
        rw [ht]
        dsimp only
        rw [hc]
        dsimp only
        exact resolveLoop_mono tol _ _ (fun k H H' h => resolveMpc_mono tol n (n+1) (by omega) d d le_rfl k H H' h) n n le_rfl k _ _ _ h
      | some c0 =>
        obtain ⟨mH, mk⟩ := findSlave_mem k H m hm
        obtain ⟨c0H, c0k⟩ := findSlave_mem _ H c0 hc
        have hlt : r t.key < r k := by rw [← mk]; exact hg.rank m mH t (List.mem_of_getElem? ht) ⟨c0, c0H, c0k⟩
        obtain ⟨n1, d1, H1, hr1⟩ := hrec t.key H hlt hg ⟨c0, c0H, c0k⟩
        obtain ⟨r1, r2⟩ := resolveMpc_spec tol r S hS n1 d1 t.key H H1 hg hr1
        have hm1 : findSlave k H1 = some m := by
          rcases r1.same k m hm with e | ⟨e, -⟩
          · exact e
          · omega
        cases hc1 : findSlave t.key H1 with
        | none =>
          have := (findSlave_isSome_congr r1.keys t.key).mp hc1
          rw [hc] at this; simp at this
        | some c =>
          have hcu := r2 c hc1
          have q := subst_resolves tol r S hS k H1 r1.good m c i t hm1 hc1 hcu ht
          obtain ⟨s1, -, -, new, s4, s5⟩ := subst_spec tol S hS m c i t ht (hg.coef m mH) (r1.good.coef c (findSlave_mem _ _ _ hc1).1)
          have hm'' : findSlave k (storeMpc (substMaster tol m i t.coeff c) H1) = some (substMaster tol m i t.coeff c) := by
            refine (findSlave_some k _ q.good.uniq _).mpr ⟨(mem_storeMpc _ _ _).mpr (Or.inr ⟨rfl, ?_⟩), s1.trans mk⟩
            rw [s1]
            exact ⟨m, (findSlave_mem _ _ _ hm1).1, rfl⟩
          have hkeys : (storeMpc (substMaster tol m i t.coeff c) H1).map Mpc.key = H.map Mpc.key := q.keys.trans r1.keys
          have hsome : ∀ x, (findSlave x (storeMpc (substMaster tol m i t.coeff c) H1)).isSome = (findSlave x H).isSome := by
            intro x
            have := findSlave_isSome_congr hkeys x
            cases h1 : findSlave x H <;> cases h2 : findSlave x (storeMpc (substMaster tol m i t.coeff c) H1) <;> simp_all
          have hlt2 : toLex (chainedFrom (storeMpc (substMaster tol m i t.coeff c) H1) (substMaster tol m i t.coeff c) i, (substMaster tol m i t.coeff c).master.length - i) < p := by
            rw [← hp, Prod.Lex.toLex_lt_toLex]
            left
            simp only [chainedFrom, hsome]
            rw [hdrop, List.countP_cons_of_pos (by rw [hc]; simp), s4, List.drop_append_of_le_length (by rw [List.length_eraseIdx_of_lt (by simpa using htl)]; simp; omega),
              List.countP_append]
            have e1 : new.countP (fun k => (findSlave k H).isSome) = 0 := by
              rw [List.countP_eq_zero]
              intro x hx hsx
              obtain ⟨t2, ht2, e2⟩ := List.mem_map.mp (s5 x hx)
              have hn : findSlave x H1 = none := (findSlave_none x H1).mpr (e2 ▸ hcu t2 ht2)
              rw [(findSlave_isSome_congr r1.keys x).mp hn] at hsx
              simp at hsx
            have e2 : ((m.master.map MTerm.key).eraseIdx i).drop i = (m.master.map MTerm.key).drop (i+1) := by
              rw [List.eraseIdx_eq_take_drop_succ, List.drop_append_of_le_length (by simp; omega), List.drop_take]
              simp
            rw [e1, e2]
            omega
          obtain ⟨n, d, H', h⟩ := ih _ hlt2 i _ _ rfl q.good hm''
          refine ⟨max n1 n + 1, max d1 d, H', ?_⟩
          rw [resolveLoop, hm]
          dsimp only
          rw [ht]
          dsimp only
          rw [hc]
          dsimp only
          rw [resolveMpc_mono tol n1 (max n1 n + 1) (by omega) d1 (max d1 d) (by omega) _ _ _ hr1]
          dsimp only
          rw [hm1, hc1]
          dsimp only
          rw [ht]
          dsimp only
          exact resolveLoop_mono tol _ _ (fun k H H' h => resolveMpc_mono tol n _ (by omega) d _ (by omega) k H H' h) n _ (by omega) k _ _ _ h

theorem resolveMpc_total (tol : K) (r : Int × Int → Nat) (S : Subring K) (hS : ExactCoeffs tol S) (k : Int × Int) (H : List (Mpc K)) (hg : GoodSet r S H) (hk : IsSlave H k) :
    ∃ n d H', resolveMpc tol n d k H = some H' := by
  suffices ∀ (q : Nat) (k : Int × Int) (H : List (Mpc K)), r k = q → GoodSet r S H → IsSlave H k → ∃ n d H', resolveMpc tol n d k H = some H' from this _ k H rfl hg hk
  intro q
  induction q using Nat.strong_induction_on with
  | _ q ih =>
    intro k H hq hg hk
    cases hm : findSlave k H with
    | none => exact absurd hk ((findSlave_none k H).mp hm)
    | some m =>
      obtain ⟨n, d, H', h⟩ := resolveLoop_total tol r S hS k (fun k' H' hlt hg' hs => ih (r k') (by omega) k' H' rfl hg' hs) 0 H hg m hm
      exact ⟨n, d+1, H', h⟩

theorem resolveAll_mono (tol : K) (n n' : Nat) (hn : n ≤ n') (d d' : Nat) (hd : d ≤ d') (ks : List (Int × Int)) (H H' : List (Mpc K)) (h : resolveAll tol n d ks H = some H') :
    resolveAll tol n' d' ks H = some H' := by
  induction ks generalizing H with
  | nil => exact h
  | cons k ks ih =>
    rw [resolveAll] at h ⊢
    cases hr : resolveMpc tol n d k H with
    | none => rw [hr] at h; simp at h
    | some H1 =>
      rw [hr] at h
      rw [resolveMpc_mono tol n n' hn d d' hd k H H1 hr]
      exact ih H1 h

theorem resolveAll_total (tol : K) (r : Int × Int → Nat) (S : Subring K) (hS : ExactCoeffs tol S) (ks : List (Int × Int)) (H : List (Mpc K)) (hg : GoodSet r S H)
    (hk : ∀ k ∈ ks, IsSlave H k) : ∃ n d H', resolveAll tol n d ks H = some H' := by
  induction ks generalizing H with
  | nil => exact ⟨0, 0, H, rfl⟩
  | cons k ks ih =>
    obtain ⟨n1, d1, H1, h1⟩ := resolveMpc_total tol r S hS k H hg (hk k (by simp))
    obtain ⟨r1, -⟩ := resolveMpc_spec tol r S hS n1 d1 k H H1 hg h1
    obtain ⟨n, d, H', h⟩ := ih H1 r1.good (fun q hq => (isSlave_congr r1.keys q).mpr (hk q (List.mem_cons_of_mem _ hq)))
    refine ⟨max n1 n, max d1 d, H', ?_⟩
    rw [resolveAll, resolveMpc_mono tol n1 _ (by omega) d1 _ (by omega) k H H1 h1]
    exact resolveAll_mono tol n _ (by omega) d _ (by omega) ks H1 H' h

/-- **C18** (resolving of chains). For any set of constraints with unique slaves and no cyclic chains, resolving terminates (with a result that does not depend on the limits in the model, if
large enough).  The result has the same slaves, it is obeyed by exactly the same displacement fields, and no master is a slave.  The coefficients are assumed to be in
a ring where no number but zero is within the tolerance of zero. -/
theorem C18_resolve_chains (tol : K) (S : Subring K) (hS : ∀ c ∈ S, -tol ≤ c → c ≤ tol → c = 0) (H : List (Mpc K)) (hu : UniqueSlaves H) (ha : Acyclic H)
    (hc : ∀ m ∈ H, ∀ t ∈ m.master, t.coeff ∈ S) :
    ∃ n0 d0 H', (∀ n d, n0 ≤ n → d0 ≤ d → resolveAll tol n d (H.map fun m => (m.node, m.dof)) H = some H') ∧
      (H'.map fun m => (m.node, m.dof)) = (H.map fun m => (m.node, m.dof)) ∧
      (∀ u, HoldAll H' u ↔ HoldAll H u) ∧ ∀ m ∈ H', Unchained H' m := by
  obtain ⟨r, hr⟩ := ha
  have hg : GoodSet r S H := ⟨hu, hr, hc⟩
  obtain ⟨n0, d0, H', h⟩ := resolveAll_total tol r S hS (H.map Mpc.key) H hg (fun k hk => (isSlave_iff H k).mpr hk)
  obtain ⟨i1, i2, i3, -, i5⟩ := resolveAll_spec tol r S hS n0 d0 _ H H' hg h
  refine ⟨n0, d0, H', fun n d hn hd => resolveAll_mono tol n0 n hn d0 d hd _ H H' h, i1, fun u => (i3 u).symm, fun m hm => ?_⟩
  have hk : m.key ∈ H.map Mpc.key := by rw [← i1]; exact List.mem_map_of_mem hm
  exact i5 m.key hk m ((findSlave_some _ H' i2.uniq m).mpr ⟨hm, rfl⟩)

/-- The tolerance in the code. -/
def mpcTol : ℚ := 1/100000000

/-- **C18** for integer coefficients, such as those of periodicity conditions, with the tolerance in the code. -/
theorem C18_resolve_integers (H : List (Mpc ℚ)) (hu : UniqueSlaves H) (ha : Acyclic H) (hc : ∀ m ∈ H, ∀ t ∈ m.master, ∃ z : Int, t.coeff = z) :
    ∃ n0 d0 H', (∀ n d, n0 ≤ n → d0 ≤ d → resolveAll mpcTol n d (H.map fun m => (m.node, m.dof)) H = some H') ∧
      (∀ u, HoldAll H' u ↔ HoldAll H u) ∧ ∀ m ∈ H', Unchained H' m := by
  have hS : ∀ c ∈ (Int.castRingHom ℚ).range, -mpcTol ≤ c → c ≤ mpcTol → c = 0 := by
    rintro c ⟨z, rfl⟩ h1 h2
    simp only [eq_intCast, mpcTol] at h1 h2 ⊢
    have a1 : (-1 : ℚ) < z := lt_of_lt_of_le (by norm_num) h1
    have a2 : (z : ℚ) < 1 := lt_of_le_of_lt h2 (by norm_num)
    have b1 : (-1 : Int) < z := by exact_mod_cast a1
    have b2 : z < 1 := by exact_mod_cast a2
    have : z = 0 := by omega
    rw [this]; simp
  have hC : ∀ m ∈ H, ∀ t ∈ m.master, t.coeff ∈ (Int.castRingHom ℚ).range := by
    intro m hm t ht
    obtain ⟨z, hz⟩ := hc m hm t ht
    exact ⟨z, by simp [hz]⟩
  obtain ⟨n0, d0, H', h1, -, h2, h3⟩ := C18_resolve_chains mpcTol (Int.castRingHom ℚ).range hS H hu ha hC
  exact ⟨n0, d0, H', h1, h2, h3⟩

/-- A chain of three constraints. -/
def chainExample : List (Mpc ℚ) := [⟨1, 1, 1, [⟨2, 1, 2, false⟩, ⟨4, 1, 1, false⟩]⟩, ⟨2, 1, 5, [⟨3, 1, 3, false⟩, ⟨4, 1, -1, false⟩]⟩, ⟨3, 1, 0, [⟨5, 1, 1, false⟩]⟩]

/-- Non-trivial case: the hypotheses hold for this chain, and resolving gives the expected equations. -/
example : UniqueSlaves chainExample ∧ Acyclic chainExample ∧
    resolveAll mpcTol 10 10 (chainExample.map fun m => (m.node, m.dof)) chainExample =
      some [⟨1, 1, 11, [⟨4, 1, -1, false⟩, ⟨5, 1, 6, false⟩]⟩, ⟨2, 1, 5, [⟨4, 1, -1, false⟩, ⟨5, 1, 3, false⟩]⟩, ⟨3, 1, 0, [⟨5, 1, 1, false⟩]⟩] := by
  refine ⟨by unfold UniqueSlaves; decide +kernel, ⟨fun k => 10 - k.1.toNat, ?_⟩, by decide +kernel⟩
  intro m hm t ht hs
  simp only [chainExample, List.mem_cons, List.not_mem_nil, or_false] at hm
  rcases hm with rfl | rfl | rfl <;> simp only [List.mem_cons, List.not_mem_nil, or_false] at ht
  · rcases ht with rfl | rfl <;> decide
  · rcases ht with rfl | rfl <;> decide
  · subst ht; decide

/-- **C18 fails** for small coefficients: the product of two coefficients 1e-5 is dropped, and the displacement field which obeys the resulting constraints does not obey the original ones. -/
theorem C18_counterexample_small_coefficients :
    let H : List (Mpc ℚ) := [⟨1, 1, 0, [⟨2, 1, 1/100000, false⟩]⟩, ⟨2, 1, 0, [⟨3, 1, 1/100000, false⟩]⟩]
    resolveAll mpcTol 10 10 (H.map fun m => (m.node, m.dof)) H = some [⟨1, 1, 0, []⟩, ⟨2, 1, 0, [⟨3, 1, 1/100000, false⟩]⟩] := by
  decide +kernel

/-- Cyclic chains are not resolved: the recursion does not end at any depth. -/
theorem C18_cyclic_chain_diverges (n d : Nat) :
    resolveMpc mpcTol n d (1, 1) [⟨1, 1, 0, [⟨2, 1, 1, false⟩]⟩, ⟨2, 1, 0, [⟨1, 1, 1, false⟩]⟩] = none ∧
    resolveMpc mpcTol n d (2, 1) [⟨1, 1, 0, [⟨2, 1, 1, false⟩]⟩, ⟨2, 1, 0, [⟨1, 1, 1, false⟩]⟩] = none := by
  induction d with
  | zero => exact ⟨rfl, rfl⟩
  | succ d ih =>
    cases n with
    | zero => exact ⟨rfl, rfl⟩
    | succ n =>
      have e1 : ∀ (f : Int × Int → List (Mpc ℚ) → Option (List (Mpc ℚ))), f (2, 1) [⟨1, 1, 0, [⟨2, 1, 1, false⟩]⟩, ⟨2, 1, 0, [⟨1, 1, 1, false⟩]⟩] = none →
          resolveLoop mpcTol f (n+1) (1, 1) 0 [⟨1, 1, 0, [⟨2, 1, 1, false⟩]⟩, ⟨2, 1, 0, [⟨1, 1, 1, false⟩]⟩] = none := by
        intro f hf
        simp only [resolveLoop, findSlave, Mpc.key, MTerm.key, List.find?_cons, List.getElem?_cons_zero, decide_true]
        simp [hf]
      have e2 : ∀ (f : Int × Int → List (Mpc ℚ) → Option (List (Mpc ℚ))), f (1, 1) [⟨1, 1, 0, [⟨2, 1, 1, false⟩]⟩, ⟨2, 1, 0, [⟨1, 1, 1, false⟩]⟩] = none →
          resolveLoop mpcTol f (n+1) (2, 1) 0 [⟨1, 1, 0, [⟨2, 1, 1, false⟩]⟩, ⟨2, 1, 0, [⟨1, 1, 1, false⟩]⟩] = none := by
        intro f hf
        simp [resolveLoop, findSlave, Mpc.key, MTerm.key, List.find?_cons, hf]
      exact ⟨e1 _ ih.2, e2 _ ih.1⟩

end IFEM.Props
