import Verif.Spec.Mpc
import Mathlib.Data.List.Lex
import Mathlib.Data.Prod.Lex
import Mathlib.Order.WithBot
import Mathlib.Tactic.Ring
import Mathlib.Tactic.LinearCombination
import Mathlib.Tactic.Linarith
import Mathlib.Data.Rat.Defs
import Mathlib.Algebra.Order.Ring.Rat
/-!
# C16, C17: constraint sets and master terms
-/
namespace IFEM.Props
open IFEM.Spec

/-! ## The ordering of constraints -/

section order
variable {K : Type} [LinearOrder K]

/-- Ordering key of a DOF. -/
def dofKey (n d : Int) (c : K) : Int ×ₗ (Int ×ₗ K) := toLex (n, toLex (d, c))

theorem dofLess_false (n1 d1 : Int) (c1 : K) (n2 d2 : Int) (c2 : K) :
    dofLess false n1 d1 c1 n2 d2 c2 = decide (dofKey n1 d1 c1 < dofKey n2 d2 c2) := by
  rw [Bool.eq_iff_iff, decide_eq_true_eq, dofKey, dofKey, Prod.Lex.toLex_lt_toLex, Prod.Lex.toLex_lt_toLex]
  unfold dofLess
  by_cases h1 : n1 < n2
  · simp [h1]
  · by_cases h2 : n1 > n2
    · simp [h1, h2, show n1 ≠ n2 by omega]
    · by_cases h3 : d1 < d2
      · simp [h1, h2, h3, show n1 = n2 by omega]
      · by_cases h4 : d1 > d2
        · simp [h1, h2, h3, h4, show n1 = n2 by omega, show d1 ≠ d2 by omega]
        · simp [show n1 = n2 by omega, show d1 = d2 by omega]

theorem dofLess_true (n1 d1 : Int) (c1 : K) (n2 d2 : Int) (c2 : K) :
    dofLess true n1 d1 c1 n2 d2 c2 = decide ((toLex (n1, d1) : Int ×ₗ Int) < toLex (n2, d2)) := by
  rw [Bool.eq_iff_iff, decide_eq_true_eq, Prod.Lex.toLex_lt_toLex]
  unfold dofLess
  by_cases h1 : n1 < n2
  · simp [h1]
  · by_cases h2 : n1 > n2
    · simp [h1, h2, show n1 ≠ n2 by omega]
    · by_cases h3 : d1 < d2
      · simp [h1, h2, h3, show n1 = n2 by omega]
      · simp [h1, h2, h3, show n1 = n2 by omega]

theorem mastersLess_false (l r : List (MTerm K)) :
    mastersLess false l r = decide ((l.map fun t => dofKey t.node t.dof t.coeff) < (r.map fun t => dofKey t.node t.dof t.coeff)) := by
  induction l generalizing r with
  | nil =>
    cases r with
    | nil => simp [mastersLess]
    | cons b bs => simp [mastersLess]
  | cons a as ih =>
    cases r with
    | nil => simp [mastersLess]
    | cons b bs =>
      rw [mastersLess, dofLess_false, dofLess_false, ih, List.map_cons, List.map_cons, Bool.eq_iff_iff]
      simp only [decide_eq_true_eq, List.cons_lt_cons_iff]
      rcases lt_trichotomy (dofKey a.node a.dof a.coeff) (dofKey b.node b.dof b.coeff) with h | h | h
      · simp [h]
      · simp [h]
      · simp [h, not_lt_of_gt h, ne_of_gt h]

/-- Ordering key of a constraint in the full comparison. -/
def fullKey (m : Mpc K) : (Int ×ₗ (Int ×ₗ K)) ×ₗ List (Int ×ₗ (Int ×ₗ K)) :=
  toLex (dofKey m.node m.dof m.c0, m.master.map fun t => dofKey t.node t.dof t.coeff)

/-- Ordering key of a constraint in the slave-only comparison. -/
def slaveKey (m : Mpc K) : Int ×ₗ Int := toLex (m.node, m.dof)

theorem mpcLess_true (l r : Mpc K) : mpcLess true (some l) (some r) = decide (slaveKey l < slaveKey r) := by
  simp only [mpcLess, dofLess_true]
  rw [Bool.eq_iff_iff]
  simp only [slaveKey, if_true, ite_self, decide_eq_true_eq]
  by_cases h : (toLex (l.node, l.dof) : Int ×ₗ Int) < toLex (r.node, r.dof)
  · simp [h]
  · simp [h]

theorem mpcLess_false (l r : Mpc K) : mpcLess false (some l) (some r) = decide (fullKey l < fullKey r) := by
  simp only [mpcLess, dofLess_false, mastersLess_false]
  rw [Bool.eq_iff_iff]
  simp only [decide_eq_true_eq, fullKey, Prod.Lex.toLex_lt_toLex, Bool.false_eq_true, if_false]
  rcases lt_trichotomy (dofKey l.node l.dof l.c0) (dofKey r.node r.dof r.c0) with h | h | h
  · simp [h]
  · simp [h]
  · simp [h, not_lt_of_gt h, ne_of_gt h]

/-- Ordering key of a pointer: null comes first. -/
def ptrKey {A : Type} (key : Mpc K → A) : Option (Mpc K) → WithBot A
  | none => ⊥
  | some m => (key m : WithBot A)

/-- The comparison is that of keys in a linear order; null pointers come first. -/
theorem mpcLess_key (so : Bool) : ∃ (A : Type) (_ : LinearOrder A) (key : Option (Mpc K) → A),
    ∀ a b : Option (Mpc K), mpcLess so a b = true ↔ key a < key b := by
  have aux : ∀ (A : Type) (_ : LinearOrder A) (key : Mpc K → A), (∀ l r, mpcLess so (some l) (some r) = decide (key l < key r)) →
      ∀ a b : Option (Mpc K), mpcLess so a b = true ↔ ptrKey key a < ptrKey key b := by
    intro A _ key h a b
    cases b with
    | none =>
      have : mpcLess so a none = false := by cases a <;> rfl
      rw [this]
      simp only [Bool.false_eq_true, ptrKey, false_iff]
      exact not_lt_bot
    | some r =>
      cases a with
      | none =>
        have : mpcLess so none (some r) = true := rfl
        rw [this]
        simp only [ptrKey, true_iff]
        exact WithBot.bot_lt_coe (key r)
      | some l =>
        rw [h l r, decide_eq_true_eq]
        exact (WithBot.coe_lt_coe (a := key l) (b := key r)).symm
  cases so with
  | true => exact ⟨_, _, ptrKey slaveKey, aux _ _ _ mpcLess_true⟩
  | false => exact ⟨_, _, ptrKey fullKey, aux _ _ _ mpcLess_false⟩

/-- **C16** (ordering). In both modes the comparison of constraints is a strict weak ordering, as `std::set` requires: irreflexive, transitive, and such that
being neither before nor after is transitive. -/
theorem C16_strict_weak_ordering (so : Bool) :
    (∀ a : Option (Mpc K), mpcLess so a a = false) ∧
    (∀ a b c : Option (Mpc K), mpcLess so a b = true → mpcLess so b c = true → mpcLess so a c = true) ∧
    (∀ a b c : Option (Mpc K), mpcLess so a b = false → mpcLess so b a = false → mpcLess so b c = false → mpcLess so c b = false →
      mpcLess so a c = false ∧ mpcLess so c a = false) := by
  obtain ⟨A, _, key, h⟩ := mpcLess_key (K := K) so
  have hf : ∀ a b, mpcLess so a b = false ↔ ¬ (key a < key b) := by
    intro a b
    rw [← h a b]
    simp
  refine ⟨fun a => (hf a a).mpr (lt_irrefl _), fun a b c h1 h2 => ?_, fun a b c h1 h2 h3 h4 => ?_⟩
  · rw [h] at h1 h2 ⊢; exact lt_trans h1 h2
  · rw [hf] at h1 h2 h3 h4 ⊢
    rw [hf]
    push Not at h1 h2 h3 h4 ⊢
    exact ⟨le_trans h3 h1, le_trans h2 h4⟩

/-- **C16** (equivalence). In slave-only mode two constraints are equivalent if and only if they have the same slave, otherwise if and only if they are the same equation. -/
theorem C16_equivalence (a b : Mpc K) :
    ((mpcLess true (some a) (some b) = false ∧ mpcLess true (some b) (some a) = false) ↔ a.node = b.node ∧ a.dof = b.dof) ∧
    ((mpcLess false (some a) (some b) = false ∧ mpcLess false (some b) (some a) = false) ↔
      a.node = b.node ∧ a.dof = b.dof ∧ a.c0 = b.c0 ∧ a.master.map (fun t => (t.node, t.dof, t.coeff)) = b.master.map (fun t => (t.node, t.dof, t.coeff))) := by
  constructor
  · rw [mpcLess_true, mpcLess_true]
    simp only [decide_eq_false_iff_not, not_lt]
    rw [← le_antisymm_iff.trans And.comm, eq_comm]
    simp only [slaveKey, toLex_inj, Prod.mk.injEq]
    constructor <;> rintro ⟨h1, h2⟩ <;> exact ⟨h1.symm, h2.symm⟩
  · rw [mpcLess_false, mpcLess_false]
    simp only [decide_eq_false_iff_not, not_lt]
    rw [← le_antisymm_iff.trans And.comm]
    simp only [fullKey, dofKey, toLex_inj, Prod.mk.injEq]
    have hm : ∀ l r : List (MTerm K), (l.map fun t => (toLex (t.node, toLex (t.dof, t.coeff)) : Int ×ₗ (Int ×ₗ K))) = (r.map fun t => toLex (t.node, toLex (t.dof, t.coeff))) ↔
        l.map (fun t => (t.node, t.dof, t.coeff)) = r.map (fun t => (t.node, t.dof, t.coeff)) := by
      intro l
      induction l with
      | nil => intro r; cases r <;> simp
      | cons x xs ih =>
        intro r
        cases r with
        | nil => simp
        | cons y ys => simp only [List.map_cons, List.cons.injEq, ih ys, toLex_inj, Prod.mk.injEq]
    rw [hm]
    constructor
    · rintro ⟨⟨h1, h2, h3⟩, h4⟩; exact ⟨h1, h2, h3, h4⟩
    · rintro ⟨h1, h2, h3, h4⟩; exact ⟨⟨h1, h2, h3⟩, h4⟩

/-- Sorted by slave. -/
def SortedBySlave (s : List (Mpc K)) : Prop := s.Pairwise fun a b => slaveKey a < slaveKey b

theorem slaveKey_eq_iff (a b : Mpc K) : slaveKey a = slaveKey b ↔ a.key = b.key := by
  simp only [slaveKey, toLex_inj, Mpc.key]

theorem setInsert_spec (m : Mpc K) (s : List (Mpc K)) (hs : SortedBySlave s) :
    SortedBySlave (setInsert true m s).2 ∧
    ((setInsert true m s).1 = true ↔ ∀ x ∈ s, x.key ≠ m.key) ∧
    (∀ x, x ∈ (setInsert true m s).2 ↔ x ∈ s ∨ (x = m ∧ ∀ y ∈ s, y.key ≠ m.key)) := by
  induction s with
  | nil => simp [setInsert, SortedBySlave]
  | cons x xs ih =>
    obtain ⟨h1, h2⟩ := List.pairwise_cons.mp hs
    obtain ⟨i1, i2, i3⟩ := ih h2
    rw [setInsert, mpcLess_true, mpcLess_true]
    rcases lt_trichotomy (slaveKey m) (slaveKey x) with h | h | h
    · have hne : ∀ y ∈ x :: xs, y.key ≠ m.key := by
        intro y hy e
        rw [← slaveKey_eq_iff] at e
        rcases List.mem_cons.mp hy with rfl | hy
        · rw [e] at h; exact lt_irrefl _ h
        · have := h1 y hy; rw [e] at this; exact lt_irrefl _ (lt_trans this h)
      rw [if_pos (by simpa using h)]
      refine ⟨List.pairwise_cons.mpr ⟨?_, hs⟩, ⟨fun _ => hne, fun _ => rfl⟩, fun y => ?_⟩
      · intro y hy
        rcases List.mem_cons.mp hy with rfl | hy
        · exact h
        · exact lt_trans h (h1 y hy)
      · rw [List.mem_cons (b := m)]
        constructor
        · rintro (e | e)
          · exact Or.inr ⟨e, hne⟩
          · exact Or.inl e
        · rintro (e | ⟨e, -⟩)
          · exact Or.inr e
          · exact Or.inl e
    · have hk : x.key = m.key := ((slaveKey_eq_iff _ _).mp h).symm
      rw [if_neg (by simp [h]), if_neg (by simp [h])]
      refine ⟨hs, ⟨fun e => by simp at e, fun e => absurd hk (e x (by simp))⟩, fun y => ⟨fun e => Or.inl e, ?_⟩⟩
      rintro (e | ⟨-, e⟩)
      · exact e
      · exact absurd hk (e x (by simp))
    · have hk : x.key ≠ m.key := by
        intro e
        rw [← slaveKey_eq_iff] at e
        rw [e] at h; exact lt_irrefl _ h
      rw [if_neg (by simpa using le_of_lt h), if_pos (by simpa using h)]
      dsimp only
      refine ⟨List.pairwise_cons.mpr ⟨?_, i1⟩, ?_, fun y => ?_⟩
      · intro y hy
        rcases (i3 y).mp hy with hy | ⟨rfl, -⟩
        · exact h1 y hy
        · exact h
      · rw [i2]
        constructor
        · intro e y hy
          rcases List.mem_cons.mp hy with rfl | hy
          · exact hk
          · exact e y hy
        · intro e y hy; exact e y (List.mem_cons_of_mem _ hy)
      · rw [List.mem_cons, i3 y, List.mem_cons]
        constructor
        · rintro (e | e | ⟨e, e2⟩)
          · exact Or.inl (Or.inl e)
          · exact Or.inl (Or.inr e)
          · refine Or.inr ⟨e, fun z hz => ?_⟩
            rcases List.mem_cons.mp hz with rfl | hz
            · exact hk
            · exact e2 z hz
        · rintro ((e | e) | ⟨e, e2⟩)
          · exact Or.inl e
          · exact Or.inr (Or.inl e)
          · exact Or.inr (Or.inr ⟨e, fun z hz => e2 z (List.mem_cons_of_mem _ hz)⟩)

theorem sorted_unique (s : List (Mpc K)) (hs : SortedBySlave s) (a b : Mpc K) (ha : a ∈ s) (hb : b ∈ s) (h : a.key = b.key) : a = b := by
  by_contra hne
  have h2 : slaveKey a = slaveKey b := (slaveKey_eq_iff _ _).mpr h
  obtain ⟨i, hi, rfl⟩ := List.getElem_of_mem ha
  obtain ⟨j, hj, rfl⟩ := List.getElem_of_mem hb
  rcases Nat.lt_trichotomy i j with hij | hij | hij
  · exact (ne_of_lt (List.pairwise_iff_getElem.mp hs i j hi hj hij)) h2
  · subst hij; exact hne rfl
  · exact (ne_of_lt (List.pairwise_iff_getElem.mp hs j i hj hi hij)) h2.symm

theorem setFind_spec (m : Mpc K) (s : List (Mpc K)) (hs : SortedBySlave s) (x : Mpc K) :
    setFind true m s = some x ↔ x ∈ s ∧ x.key = m.key := by
  have e : (fun x : Mpc K => !mpcLess true (some m) (some x) && !mpcLess true (some x) (some m)) = fun x => decide (x.key = m.key) := by
    funext x
    rw [mpcLess_true, mpcLess_true, Bool.eq_iff_iff]
    simp only [Bool.and_eq_true, Bool.not_eq_true', decide_eq_false_iff_not, decide_eq_true_eq, not_lt, ← slaveKey_eq_iff]
    exact ⟨fun h => le_antisymm h.1 h.2, fun h => by rw [h]; exact ⟨le_rfl, le_rfl⟩⟩
  unfold setFind
  rw [e]
  constructor
  · intro h
    exact ⟨List.mem_of_find?_eq_some h, by simpa using List.find?_some h⟩
  · rintro ⟨h1, h2⟩
    cases hf : s.find? fun x => decide (x.key = m.key) with
    | none =>
      rw [List.find?_eq_none] at hf
      exact absurd h2 (by simpa using hf x h1)
    | some y =>
      have hy1 := List.mem_of_find?_eq_some hf
      have hy2 : y.key = m.key := by simpa using List.find?_some hf
      rw [sorted_unique s hs y x hy1 h1 (hy2.trans h2.symm)]

/-- **C16** (sets). After any history of insertions, the set holds for every slave DOF the constraint inserted first for it and no other, lookup of a DOF finds it, and
the insertion of a further constraint for the same slave is reported as not done. -/
theorem C16_set_history (hist : List (Mpc K)) (m : Mpc K) :
    let s := hist.foldl (fun s x => (setInsert true x s).2) []
    setFind true m s = hist.find? (fun x => decide (x.node = m.node ∧ x.dof = m.dof)) ∧
    (s.map fun x => (x.node, x.dof)).Nodup ∧
    ((setInsert true m s).1 = true ↔ ∀ x ∈ hist, ¬ (x.node = m.node ∧ x.dof = m.dof)) := by
  suffices ∀ (hist : List (Mpc K)) (s0 : List (Mpc K)), SortedBySlave s0 →
      let s := hist.foldl (fun s x => (setInsert true x s).2) s0
      SortedBySlave s ∧ ∀ m x : Mpc K, (x ∈ s ∧ x.key = m.key) ↔ ((x ∈ s0 ∧ x.key = m.key) ∨ ((∀ y ∈ s0, y.key ≠ m.key) ∧ hist.find? (fun x => decide (x.key = m.key)) = some x)) by
    obtain ⟨hs, hm⟩ := this hist [] List.Pairwise.nil
    have efun : (fun x : Mpc K => decide (x.node = m.node ∧ x.dof = m.dof)) = fun x => decide (x.key = m.key) := by
      funext x; simp [Mpc.key]
    have hmem : ∀ x, (x ∈ hist.foldl (fun s x => (setInsert true x s).2) [] ∧ x.key = m.key) ↔ hist.find? (fun x => decide (x.key = m.key)) = some x := by
      intro x; rw [hm m x]; simp
    refine ⟨?_, ?_, ?_⟩
    · rw [efun]
      apply Option.ext
      intro x
      rw [setFind_spec m _ hs x, hmem]
    · have : ((hist.foldl (fun s x => (setInsert true x s).2) []).map fun x => (x.node, x.dof)).Pairwise (fun a b => a ≠ b) := by
        rw [List.pairwise_map]
        refine hs.imp fun h e => ?_
        have : slaveKey _ = slaveKey _ := (slaveKey_eq_iff _ _).mpr e
        exact (ne_of_lt h) this
      exact this
    · rw [(setInsert_spec m _ hs).2.1]
      constructor
      · intro h x hx he
        cases hf : hist.find? (fun x => decide (x.key = m.key)) with
        | none =>
          rw [List.find?_eq_none] at hf
          exact (by simpa using hf x hx : x.key ≠ m.key) (by simp [Mpc.key, he.1, he.2])
        | some y =>
          obtain ⟨a, b⟩ := (hmem y).mpr hf
          exact h y a b
      · intro h x hx he
        have := (hmem x).mp ⟨hx, he⟩
        refine h x (List.mem_of_find?_eq_some this) ?_
        simpa [Mpc.key] using he
  intro hist
  induction hist with
  | nil => intro s0 hs; exact ⟨hs, by simp⟩
  | cons a as ih =>
    intro s0 hs
    obtain ⟨p1, -, p3⟩ := setInsert_spec a s0 hs
    obtain ⟨q1, q2⟩ := ih _ p1
    refine ⟨q1, fun m x => ?_⟩
    rw [List.foldl_cons, q2 m x]
    have hall : (∀ y ∈ (setInsert true a s0).2, y.key ≠ m.key) ↔ (∀ y ∈ s0, y.key ≠ m.key) ∧ a.key ≠ m.key := by
      constructor
      · intro h
        refine ⟨fun y hy => h y ((p3 y).mpr (Or.inl hy)), fun e => ?_⟩
        have hn : ∀ y ∈ s0, y.key ≠ a.key := fun y hy => by rw [e]; exact h y ((p3 y).mpr (Or.inl hy))
        exact h a ((p3 a).mpr (Or.inr ⟨rfl, hn⟩)) e
      · rintro ⟨h1, h2⟩ y hy
        rcases (p3 y).mp hy with hy | ⟨rfl, -⟩
        · exact h1 y hy
        · exact h2
    rw [p3 x, hall]
    by_cases ha : a.key = m.key
    · rw [List.find?_cons_of_pos (by simpa using ha)]
      constructor
      · rintro (⟨h1 | ⟨h1, h2⟩, h3⟩ | ⟨⟨-, h⟩, -⟩)
        · exact Or.inl ⟨h1, h3⟩
        · exact Or.inr ⟨by rw [← ha]; exact h2, by rw [h1]⟩
        · exact absurd ha h
      · rintro (h | ⟨h1, h2⟩)
        · exact Or.inl ⟨Or.inl h.1, h.2⟩
        · simp only [Option.some.injEq] at h2
          rw [← h2]
          exact Or.inl ⟨Or.inr ⟨rfl, by rw [ha]; exact h1⟩, ha⟩
    · rw [List.find?_cons_of_neg (by simpa using ha)]
      constructor
      · rintro (⟨h1 | ⟨h1, h2⟩, h3⟩ | ⟨⟨h1, -⟩, h2⟩)
        · exact Or.inl ⟨h1, h3⟩
        · rw [h1] at h3; exact absurd h3 ha
        · exact Or.inr ⟨h1, h2⟩
      · rintro (h | ⟨h1, h2⟩)
        · exact Or.inl ⟨Or.inl h.1, h.2⟩
        · exact Or.inr ⟨⟨h1, ha⟩, h2⟩

/-- Non-trivial case: the second constraint for DOF (3,1) is not inserted. -/
example : [(⟨5, 1, 0, []⟩ : Mpc ℚ), ⟨3, 1, 2, []⟩, ⟨3, 1, 7, []⟩, ⟨3, 2, 0, []⟩].foldl (fun s x => (setInsert true x s).2) [] =
    [⟨3, 1, 2, []⟩, ⟨3, 2, 0, []⟩, ⟨5, 1, 0, []⟩] := by decide +kernel

end order

/-! ## Master terms -/

section masters
variable {K : Type} [Field K] [LinearOrder K]

theorem masterSum_addTerm (u : Int × Int → K) (t : MTerm K) (l : List (MTerm K)) :
    masterSum u (addTerm t l) = masterSum u l + t.coeff * u (t.node, t.dof) := by
  induction l with
  | nil => simp [addTerm, masterSum]
  | cons x xs ih =>
    rw [addTerm]
    by_cases h : x.key = t.key
    · rw [if_pos h]
      have h2 : (x.node, x.dof) = (t.node, t.dof) := h
      simp only [masterSum, List.map_cons, List.sum_cons]
      rw [h2]; ring
    · rw [if_neg h]
      simp only [masterSum, List.map_cons, List.sum_cons] at ih ⊢
      rw [ih]; ring

theorem addTerm_keys (t : MTerm K) (l : List (MTerm K)) :
    (addTerm t l).map MTerm.key = if t.key ∈ l.map MTerm.key then l.map MTerm.key else l.map MTerm.key ++ [t.key] := by
  induction l with
  | nil => simp [addTerm]
  | cons x xs ih =>
    rw [addTerm]
    by_cases h : x.key = t.key
    · rw [if_pos h, if_pos (by rw [← h]; simp)]; rfl
    · rw [if_neg h, List.map_cons, ih]
      by_cases h2 : t.key ∈ xs.map MTerm.key
      · rw [if_pos h2, if_pos (by rw [List.map_cons]; exact List.mem_cons_of_mem _ h2)]; rfl
      · rw [if_neg h2, if_neg (by rw [List.map_cons, List.mem_cons]; push Not; exact ⟨fun e => h e.symm, h2⟩)]; rfl

/-- At most one term per master DOF. -/
def DistinctMasters (m : Mpc K) : Prop := (m.master.map fun t => (t.node, t.dof)).Nodup

theorem addTerm_nodup (t : MTerm K) (l : List (MTerm K)) (h : (l.map MTerm.key).Nodup) : ((addTerm t l).map MTerm.key).Nodup := by
  rw [addTerm_keys]
  split
  · exact h
  · rename_i h2
    rw [List.nodup_append]
    refine ⟨h, by simp, ?_⟩
    intro a ha b hb
    simp only [List.mem_singleton] at hb
    rintro rfl
    exact h2 (hb ▸ ha)

/-- **C17** (adding masters). For any sequence of masters added to a constraint with at most one term per DOF, this stays so, the slave and the constant are not changed, and the sum of the
master terms in any displacement field is increased by exactly the terms added, except those with coefficient within the tolerance of zero. -/
theorem C17_add_masters (tol : K) (m : Mpc K) (ts : List (MTerm K)) (h : DistinctMasters m) (u : Int × Int → K) :
    let m' := ts.foldl (fun m t => m.addMaster tol t) m
    DistinctMasters m' ∧ (m'.node, m'.dof, m'.c0) = (m.node, m.dof, m.c0) ∧
    masterSum u m'.master = masterSum u m.master + masterSum u (ts.filter fun t => !decide (-tol ≤ t.coeff ∧ t.coeff ≤ tol)) := by
  induction ts generalizing m with
  | nil => exact ⟨h, rfl, by simp [masterSum]⟩
  | cons t ts ih =>
    rw [List.foldl_cons]
    by_cases hz : -tol ≤ t.coeff ∧ t.coeff ≤ tol
    · rw [Mpc.addMaster, if_pos hz, List.filter_cons_of_neg (by simpa using hz)]
      exact ih m h
    · rw [Mpc.addMaster, if_neg hz, List.filter_cons_of_pos (by rw [decide_eq_false hz]; rfl)]
      obtain ⟨h1, h2, h3⟩ := ih { m with master := addTerm t m.master } (addTerm_nodup t m.master h)
      refine ⟨h1, h2, ?_⟩
      rw [h3]
      dsimp only
      rw [masterSum_addTerm]
      simp only [masterSum, List.map_cons, List.sum_cons]
      ring

/-- **C17** (adding masters, removal and offset). Removing the master at a position takes away exactly its term, changing a coefficient replaces it, and an offset is added to the constant. -/
theorem C17_update (m : Mpc K) (pos : Nat) (t : MTerm K) (ht : m.master[pos]? = some t) (c : K) (u : Int × Int → K) :
    masterSum u (m.removeMaster pos).master + t.coeff * u (t.node, t.dof) = masterSum u m.master ∧
    masterSum u (m.updateCoeff pos c).master + t.coeff * u (t.node, t.dof) = masterSum u m.master + c * u (t.node, t.dof) ∧
    (m.removeMaster pos).c0 = m.c0 ∧ (m.addOffset c).c0 = m.c0 + c ∧ (m.addOffset c).master = m.master := by
  refine ⟨?_, ?_, rfl, rfl, rfl⟩
  · simp only [Mpc.removeMaster]
    generalize m.master = l at ht
    induction l generalizing pos with
    | nil => simp at ht
    | cons x xs ih =>
      cases pos with
      | zero =>
        simp only [List.getElem?_cons_zero, Option.some.injEq] at ht
        subst ht
        simp only [List.eraseIdx_cons_zero, masterSum, List.map_cons, List.sum_cons]; ring
      | succ p =>
        rw [List.getElem?_cons_succ] at ht
        have := ih p ht
        simp only [List.eraseIdx_cons_succ, masterSum, List.map_cons, List.sum_cons] at this ⊢
        rw [← this]; ring
  · simp only [Mpc.updateCoeff]
    generalize m.master = l at ht
    induction l generalizing pos with
    | nil => simp at ht
    | cons x xs ih =>
      cases pos with
      | zero =>
        simp only [List.getElem?_cons_zero, Option.some.injEq] at ht
        subst ht
        simp only [List.modify_zero_cons, masterSum, List.map_cons, List.sum_cons]; ring
      | succ p =>
        rw [List.getElem?_cons_succ] at ht
        have := ih p ht
        simp only [List.modify_succ_cons, masterSum, List.map_cons, List.sum_cons] at this ⊢
        linear_combination this

/-- **C17** (merging). A constraint is merged only with one of the same slave and constant; then its master sum is increased by the terms of the other with
coefficient not within the tolerance of zero.  Otherwise it is not changed. -/
theorem C17_merge (tol : K) (m other : Mpc K) (h : DistinctMasters m) (u : Int × Int → K) :
    let r := m.merge tol other
    DistinctMasters r.2 ∧ (r.2.node, r.2.dof, r.2.c0) = (m.node, m.dof, m.c0) ∧
    (r.1 = false → r.2 = m) ∧
    (r.1 = true → (m.node, m.dof, m.c0) = (other.node, other.dof, other.c0) ∧
      masterSum u r.2.master = masterSum u m.master + masterSum u (other.master.filter fun t => !decide (-tol ≤ t.coeff ∧ t.coeff ≤ tol))) := by
  unfold Mpc.merge
  by_cases h1 : ¬ (m.key = other.key ∧ m.c0 = other.c0)
  · rw [if_pos h1]; exact ⟨h, rfl, fun _ => rfl, fun e => by simp at e⟩
  · rw [if_neg h1]
    by_cases h2 : identicMasters tol m.master other.master = true
    · rw [if_pos h2]; exact ⟨h, rfl, fun _ => rfl, fun e => by simp at e⟩
    · rw [if_neg h2]
      obtain ⟨a, b, c⟩ := C17_add_masters tol m other.master h u
      refine ⟨a, b, fun e => by simp at e, fun _ => ⟨?_, c⟩⟩
      push Not at h1
      have := h1.1
      simp only [Mpc.key, Prod.mk.injEq] at this
      rw [this.1, this.2, h1.2]

/-- Non-trivial case: the masters (1,1) accumulate, the small coefficient is ignored. -/
example : [(⟨1, 1, 2, false⟩ : MTerm ℚ), ⟨2, 1, 3, false⟩, ⟨3, 1, 1/1000000000, false⟩, ⟨1, 1, 5, false⟩].foldl (fun m t => Mpc.addMaster (1/100000000) m t) (⟨4, 1, 0, []⟩ : Mpc ℚ) =
    ⟨4, 1, 0, [⟨1, 1, 7, false⟩, ⟨2, 1, 3, false⟩]⟩ := by decide +kernel

end masters
end IFEM.Props
