import Verif.Model.FuncSum
import Verif.Spec.FuncSum
import Mathlib.Algebra.Order.Ring.Rat
import Mathlib.Algebra.BigOperators.Group.List.Lemmas
import Mathlib.Tactic.Ring
/-!
# C94: Weighted sums of functions
-/
namespace IFEM.FuncSum
open IFEM.Spec

variable {F X K : Type} [Field K] [LinearOrder K]

/-- The values of the functions have the announced number of components. -/
def Fits (o : Ops F X K) : Prop := ∀ f x, (o.value f x).length = o.dim f

/-- All functions of the sum have as many components as the sum. -/
def Same (o : Ops F X K) (s : Sum F K) : Prop := ∀ c ∈ s.comps, o.dim c.1 = s.ncmp

theorem add_same (o : Ops F X K) (s : Sum F K) (h : Same o s) (f : F) (w : K) : Same o (s.add o f w).1 := by
  unfold Sum.add
  split
  · intro c hc; simp at hc; subst hc; rfl
  · rename_i c l e
    split
    · rename_i hd
      intro d hd'
      simp only [List.mem_append, List.mem_singleton] at hd'
      rcases hd' with hd' | hd'
      · exact h d hd'
      · subst hd'; exact hd.trans (h c (by rw [e]; simp))
    · exact h

/-- A function is accepted exactly if it is the first one or has as many components as the sum; it is then the last one.
A refused function changes nothing. -/
theorem C94_add (o : Ops F X K) (s : Sum F K) (h : Same o s) (f : F) (w : K) :
    ((s.add o f w).2 = true ↔ (s.comps = [] ∨ o.dim f = s.ncmp)) ∧
    ((s.add o f w).2 = true → (s.add o f w).1.comps = s.comps ++ [(f, w)] ∧ (s.add o f w).1.ncmp = o.dim f) ∧
    ((s.add o f w).2 = false → (s.add o f w).1 = s) := by
  unfold Sum.add
  split
  · rename_i e; simp [e]
  · rename_i c l e
    have := h c (by rw [e]; simp)
    by_cases hd : o.dim f = o.dim c.1
    · simp [hd, this]
    · simp [hd, e, ← this]

theorem addAll_same (o : Ops F X K) (l : List (F × K)) (s : Sum F K) (h : Same o s) : Same o (s.addAll o l).1 := by
  induction l generalizing s with
  | nil => exact h
  | cons c l ih => exact ih _ (add_same o s h c.1 c.2)

theorem addAll_cons (o : Ops F X K) (l : List (F × K)) (s : Sum F K) (h : Same o s) (hne : s.comps ≠ []) :
    (s.addAll o l).1.comps = s.comps ++ l.filter (fun d => o.dim d.1 = s.ncmp) ∧ (s.addAll o l).1.ncmp = s.ncmp ∧
    (s.addAll o l).2 = l.map fun d => decide (o.dim d.1 = s.ncmp) := by
  induction l generalizing s with
  | nil => simp [Sum.addAll]
  | cons c l ih =>
    obtain ⟨h1, h2, h3⟩ := C94_add o s h c.1 c.2
    have hs := add_same o s h c.1 c.2
    show ((s.add o c.1 c.2).1.addAll o l).1.comps = _ ∧ ((s.add o c.1 c.2).1.addAll o l).1.ncmp = _ ∧
      (s.add o c.1 c.2).2 :: ((s.add o c.1 c.2).1.addAll o l).2 = _
    by_cases hd : o.dim c.1 = s.ncmp
    · have e := h1.mpr (Or.inr hd)
      obtain ⟨g1, g2⟩ := h2 e
      obtain ⟨i1, i2, i3⟩ := ih _ hs (by rw [g1]; simp)
      rw [i1, i2, i3, g1, g2, e, hd]
      simp [hd]
    · have e : (s.add o c.1 c.2).2 = false := by
        rw [Bool.eq_false_iff]; intro e; rcases h1.mp e with e | e
        · exact hne e
        · exact hd e
      rw [h3 e, e]
      obtain ⟨i1, i2, i3⟩ := ih s h hne
      rw [i1, i2, i3]
      simp [hd]

/-- Whatever functions are added to an empty sum: it consists of those with the dimension of the first one, in the order of the calls, and
exactly these calls succeed. -/
theorem C94_history (o : Ops F X K) (l : List (F × K)) :
    ((Sum.empty : Sum F K).addAll o l).1.comps = sameDim o.dim l ∧
    ((Sum.empty : Sum F K).addAll o l).2 = l.map (fun d => decide (l.head?.map (fun c => o.dim c.1) = some (o.dim d.1))) ∧
    Same o ((Sum.empty : Sum F K).addAll o l).1 ∧
    ∀ c, l.head? = some c → ((Sum.empty : Sum F K).addAll o l).1.ncmp = o.dim c.1 := by
  have h0 : Same o (Sum.empty : Sum F K) := by intro c hc; simp [Sum.empty] at hc
  refine ⟨?_, ?_, addAll_same o l _ h0, ?_⟩
  all_goals
    cases l with
    | nil => first | rfl | simp
    | cons c l =>
      have ea : (Sum.empty : Sum F K).add o c.1 c.2 = (⟨o.dim c.1, [c]⟩, true) := rfl
      have h1 := add_same o _ h0 c.1 c.2
      obtain ⟨i1, i2, i3⟩ := addAll_cons o l ((Sum.empty : Sum F K).add o c.1 c.2).1 h1 (by rw [ea]; simp)
      rw [ea] at i1 i2 i3
      have e : (Sum.empty : Sum F K).addAll o (c :: l) = ((Sum.addAll o (⟨o.dim c.1, [c]⟩ : Sum F K) l).1, true :: (Sum.addAll o (⟨o.dim c.1, [c]⟩ : Sum F K) l).2) := rfl
      rw [e]
      simp only at i1 i2 i3
      first
        | (simp only [i1]; simp [sameDim]; done)
        | (simp only [i3]; simp [eq_comm]; done)
        | (intro d hd; simp at hd; subst hd; exact i2)

/-- The type of the sum is that of its functions if they all have the same type, otherwise (and for the empty sum) zero. -/
theorem C94_type (o : Ops F X K) (s : Sum F K) :
    (∀ t, s.comps ≠ [] → (∀ c ∈ s.comps, o.typ c.1 = t) → s.getType o = t) ∧
    ((∃ c ∈ s.comps, ∃ d ∈ s.comps, o.typ c.1 ≠ o.typ d.1) → s.getType o = 0) ∧ (s.comps = [] → s.getType o = 0) := by
  unfold Sum.getType
  refine ⟨?_, ?_, ?_⟩
  · intro t hne h
    split
    · rename_i e; exact absurd e hne
    · rename_i c cs e
      rw [e] at h
      rw [if_neg, h c (by simp)]
      simp only [List.any_eq_true, not_exists, not_and]
      intro d hd
      simp [h d hd, h c (by simp)]
  · rintro ⟨c, hc, d, hd, hne⟩
    split
    · rfl
    · rename_i a as e
      rw [e] at hc hd
      rw [if_pos]
      rw [List.any_eq_true]
      by_cases h : o.typ c.1 = o.typ a.1
      · exact ⟨d, hd, by simp; intro e'; exact hne (h.trans e'.symm)⟩
      · exact ⟨c, hc, by simpa using h⟩
  · intro e; rw [e]

/-- A point is in the domain of the sum exactly if it is in the domain of one of the functions. -/
theorem C94_domain (o : Ops F X K) (s : Sum F K) (x : X) : s.inDomain o x = true ↔ ∃ c ∈ s.comps, o.inDomain c.1 x = true := by
  unfold Sum.inDomain; rw [List.any_eq_true]

theorem initLoop_eq (o : Ops F X K) (idx : Nat) (l : List (F × K)) (a : Bool) :
    initLoop o idx l a = (l.map fun c => ((o.initPatch c.1 idx).1, c.2), a || l.any fun c => (o.initPatch c.1 idx).2) := by
  induction l generalizing a with
  | nil => simp [initLoop]
  | cons c l ih => simp [initLoop, ih, Bool.or_assoc]

/-- All functions are initialized for the patch, also those after an affected one; the result tells if one of them is affected. -/
theorem C94_initPatch (o : Ops F X K) (s : Sum F K) (idx : Nat) :
    (s.initPatch o idx).1.comps = s.comps.map (fun c => ((o.initPatch c.1 idx).1, c.2)) ∧ (s.initPatch o idx).1.ncmp = s.ncmp ∧
    ((s.initPatch o idx).2 = true ↔ ∃ c ∈ s.comps, (o.initPatch c.1 idx).2 = true) := by
  unfold Sum.initPatch
  simp only [initLoop_eq]
  simp

/-! ### Values -/

theorem axpy_length (a b : List K) (w : K) (h : a.length = b.length) : (axpy a b w).length = a.length := by
  unfold axpy
  split
  · simp [h]
  · simp

theorem axpy_getD (a b : List K) (w : K) (h : a.length = b.length) (j : Nat) : (axpy a b w).getD j 0 = a.getD j 0 + w * b.getD j 0 := by
  unfold axpy
  split
  · rename_i e; subst e
    have : b = [] := List.length_eq_zero_iff.mp h.symm
    subst this; simp
  · rw [List.getD_eq_getElem?_getD, List.getElem?_map, List.getElem?_zipIdx, List.getD_eq_getElem?_getD, List.getD_eq_getElem?_getD]
    by_cases hj : j < a.length
    · rw [List.getElem?_eq_getElem hj, List.getElem?_eq_getElem (h ▸ hj)]
      simp [h ▸ hj]
    · rw [List.getElem?_eq_none (by omega), List.getElem?_eq_none (by omega)]; simp

theorem maxWith_length (a b : List K) : (maxWith a b).length = a.length := by unfold maxWith; simp

theorem maxWith_getD (a b : List K) (h : a.length = b.length) (j : Nat) (hj : j < a.length) :
    (maxWith a b).getD j 0 = max (a.getD j 0) (b.getD j 0) := by
  unfold maxWith
  rw [List.getD_eq_getElem?_getD, List.getElem?_map, List.getElem?_zipIdx, List.getD_eq_getElem?_getD, List.getD_eq_getElem?_getD,
    List.getElem?_eq_getElem hj, List.getElem?_eq_getElem (h ▸ hj)]
  simp only [Option.map_some, Nat.zero_add, Option.getD_some, List.getElem?_eq_getElem (h ▸ hj)]
  split
  · rename_i g; rw [max_eq_right (le_of_lt g)]
  · rename_i g; rw [max_eq_left (not_lt.mp g)]

theorem valueLoop_append (o : Ops F X K) (x : X) (l : List (F × K)) (c : F × K) (i : Nat) (a : List K) :
    valueLoop o x i (l ++ [c]) a = valueLoop o x (i + l.length) [c] (valueLoop o x i l a) := by
  induction l generalizing i a with
  | nil => rfl
  | cons d l ih => simp only [List.cons_append, valueLoop, ih, List.length_cons, Nat.add_assoc, Nat.add_comm 1]

theorem valueLoop_length (o : Ops F X K) (ho : Fits o) (x : X) (n : Nat) (l : List (F × K)) (hl : ∀ c ∈ l, o.dim c.1 = n) (i : Nat) (a : List K)
    (ha : a.length = n) : (valueLoop o x i l a).length = n := by
  induction l generalizing i a with
  | nil => exact ha
  | cons c l ih =>
    have hc : (o.value c.1 x).length = n := (ho _ _).trans (hl c (by simp))
    unfold valueLoop
    apply ih (fun c hc => hl c (by simp [hc]))
    split
    · rw [axpy_length _ _ _ (ha.trans hc.symm), ha]
    · split
      · exact hc
      · rw [maxWith_length, ha]

/-- The value has the number of components of the sum. -/
theorem C94_length (o : Ops F X K) (ho : Fits o) (s : Sum F K) (hs : Same o s) (x : X) : (s.getValue o x).length = s.ncmp :=
  valueLoop_length o ho x s.ncmp s.comps hs 0 _ (by simp)

/-- One more function with a positive weight adds its weighted value to each component; one with another weight replaces a component by its own value if
this is larger (and is the value itself as the first function). -/
theorem C94_one_more (o : Ops F X K) (ho : Fits o) (s : Sum F K) (hs : Same o s) (f : F) (w : K) (hf : (s.add o f w).2 = true) (x : X) (j : Nat) (hj : j < o.dim f) :
    ((s.add o f w).1.getValue o x).getD j 0 =
      if s.comps = [] then (if 0 < w then w * (o.value f x).getD j 0 else (o.value f x).getD j 0)
      else if 0 < w then (s.getValue o x).getD j 0 + w * (o.value f x).getD j 0
      else max ((s.getValue o x).getD j 0) ((o.value f x).getD j 0) := by
  obtain ⟨h1, h2, -⟩ := C94_add o s hs f w
  obtain ⟨g1, g2⟩ := h2 hf
  unfold Sum.getValue
  rw [g1, g2, valueLoop_append]
  by_cases e : s.comps = []
  · rw [if_pos e, e]
    simp only [valueLoop, List.length_nil, Nat.add_zero, if_true]
    split
    · rw [axpy_getD _ _ _ (by rw [List.length_replicate, ho])]
      rw [List.getD_eq_getElem?_getD, List.getElem?_replicate, if_pos hj]; simp
    · rfl
  · rw [if_neg e]
    have hd : o.dim f = s.ncmp := (h1.mp hf).resolve_left e
    have hl := C94_length o ho s hs x
    unfold Sum.getValue at hl
    rw [hd]
    have hlv : (valueLoop o x 0 s.comps (List.replicate s.ncmp 0)).length = (o.value f x).length := by rw [hl, ho, hd]
    have hne : ¬ (0 + s.comps.length = 0) := by
      intro h; exact e (List.length_eq_zero_iff.mp (by omega))
    simp only [valueLoop, if_neg hne]
    split
    · rw [axpy_getD _ _ _ hlv]
    · rw [maxWith_getD _ _ hlv _ (by rw [hl, ← hd]; exact hj)]

theorem valueLoop_pos (o : Ops F X K) (ho : Fits o) (x : X) (n : Nat) (l : List (F × K)) (hl : ∀ c ∈ l, o.dim c.1 = n) (hw : ∀ c ∈ l, 0 < c.2) (i : Nat) (a : List K)
    (ha : a.length = n) (j : Nat) : (valueLoop o x i l a).getD j 0 = a.getD j 0 + wsum (l.map fun c => ((o.value c.1 x).getD j 0, c.2)) := by
  induction l generalizing i a with
  | nil => simp [valueLoop, wsum]
  | cons c l ih =>
    have hc : (o.value c.1 x).length = n := (ho _ _).trans (hl c (by simp))
    unfold valueLoop
    rw [if_pos (hw c (by simp)), ih (fun c hc => hl c (by simp [hc])) (fun c hc => hw c (by simp [hc])) _ _ (by rw [axpy_length _ _ _ (ha.trans hc.symm), ha]),
      axpy_getD _ _ _ (ha.trans hc.symm)]
    simp [wsum, add_assoc]

/-- With positive weights only, the value is the weighted sum of the values of the functions. -/
theorem C94_sum (o : Ops F X K) (ho : Fits o) (s : Sum F K) (hs : Same o s) (hw : ∀ c ∈ s.comps, 0 < c.2) (x : X) (j : Nat) :
    (s.getValue o x).getD j 0 = wsum (s.comps.map fun c => ((o.value c.1 x).getD j 0, c.2)) := by
  unfold Sum.getValue
  rw [valueLoop_pos o ho x s.ncmp s.comps hs hw 0 _ (by simp)]
  rw [List.getD_eq_getElem?_getD, List.getElem?_replicate]
  split <;> simp

theorem valueLoop_max (o : Ops F X K) (ho : Fits o) (x : X) (n : Nat) (l : List (F × K)) (hl : ∀ c ∈ l, o.dim c.1 = n) (hw : ∀ c ∈ l, ¬ 0 < c.2) (i : Nat) (hi : i ≠ 0) (a : List K)
    (ha : a.length = n) (j : Nat) (hj : j < n) : IsLargest (a.getD j 0 :: l.map fun c => (o.value c.1 x).getD j 0) ((valueLoop o x i l a).getD j 0) := by
  induction l generalizing i a with
  | nil => simp [valueLoop, IsLargest]
  | cons c l ih =>
    have hc : (o.value c.1 x).length = n := (ho _ _).trans (hl c (by simp))
    unfold valueLoop
    rw [if_neg (hw c (by simp)), if_neg hi]
    have := ih (fun c hc => hl c (by simp [hc])) (fun c hc => hw c (by simp [hc])) (i+1) (by omega) (maxWith a (o.value c.1 x)) (by rw [maxWith_length, ha])
    rw [maxWith_getD _ _ (ha.trans hc.symm) _ (by omega)] at this
    obtain ⟨m1, m2⟩ := this
    simp only [List.mem_cons, forall_eq_or_imp, List.map_cons] at m1 m2 ⊢
    unfold IsLargest
    simp only [List.mem_cons, forall_eq_or_imp]
    refine ⟨?_, le_trans (le_max_left _ _) m2.1, le_trans (le_max_right _ _) m2.1, m2.2⟩
    rcases m1 with m1 | m1
    · rw [m1]
      rcases max_choice (a.getD j 0) ((o.value c.1 x).getD j 0) with h | h
      · left; exact h
      · right; left; exact h
    · right; right; exact m1

/-- Without positive weights, each component of the value is the largest one of the values of the functions. -/
theorem C94_max (o : Ops F X K) (ho : Fits o) (s : Sum F K) (hs : Same o s) (hne : s.comps ≠ []) (hw : ∀ c ∈ s.comps, ¬ 0 < c.2) (x : X) (j : Nat) (hj : j < s.ncmp) :
    IsLargest (s.comps.map fun c => (o.value c.1 x).getD j 0) ((s.getValue o x).getD j 0) := by
  unfold Sum.getValue
  cases e : s.comps with
  | nil => exact absurd e hne
  | cons c l =>
    unfold Same at hs
    rw [e] at hs hw
    unfold valueLoop
    rw [if_neg (hw c (by simp)), if_pos rfl]
    exact valueLoop_max o ho x s.ncmp l (fun c hc => hs c (by simp [hc])) (fun c hc => hw c (by simp [hc])) 1 (by omega) _
      ((ho _ _).trans (hs c (by simp))) j hj

theorem loops (o : Ops F X K) (ho : Fits o) (hsc : ∀ f x, o.scalar f x = (o.value f x).getD 0 0) (x : X) (n : Nat) (hn : 0 < n) (l : List (F × K))
    (hl : ∀ c ∈ l, o.dim c.1 = n) (i : Nat) (a : List K) (ha : a.length = n) :
    scalarLoop o x i l (a.getD 0 0) = (valueLoop o x i l a).getD 0 0 := by
  induction l generalizing i a with
  | nil => rfl
  | cons c l ih =>
    have hc : (o.value c.1 x).length = n := (ho _ _).trans (hl c (by simp))
    unfold scalarLoop valueLoop
    have hl' : ∀ c ∈ l, o.dim c.1 = n := fun c hc => hl c (by simp [hc])
    by_cases hw : 0 < c.2
    · rw [if_pos hw, if_pos hw, ← ih hl' (i+1) _ (by rw [axpy_length _ _ _ (ha.trans hc.symm), ha]), axpy_getD _ _ _ (ha.trans hc.symm), hsc]
      congr 1; ring
    · rw [if_neg hw, if_neg hw]
      by_cases hi : i = 0
      · rw [if_pos (Or.inl hi), if_pos hi, ← ih hl' (i+1) _ hc, hsc]
      · rw [if_neg hi, ← ih hl' (i+1) _ (by rw [maxWith_length, ha]), maxWith_getD _ _ (ha.trans hc.symm) _ (by omega), hsc]
        congr 1
        by_cases g : (o.value c.1 x).getD 0 0 > a.getD 0 0
        · rw [if_pos (Or.inr g), max_eq_right (le_of_lt g)]
        · rw [if_neg (by simp [hi] at g ⊢; exact g), max_eq_left (not_lt.mp g)]

/-- If the scalar value of each function is the first component of its value, this holds also for the sum. -/
theorem C94_scalar (o : Ops F X K) (ho : Fits o) (hsc : ∀ f x, o.scalar f x = (o.value f x).getD 0 0) (s : Sum F K) (hs : Same o s) (hn : 0 < s.ncmp) (x : X) :
    s.getScalarValue o x = (s.getValue o x).getD 0 0 := by
  have := loops o ho hsc x s.ncmp hn s.comps hs 0 (List.replicate s.ncmp 0) (by simp)
  unfold Sum.getScalarValue Sum.getValue
  rw [← this]
  congr 1
  rw [List.getD_eq_getElem?_getD, List.getElem?_replicate, if_pos hn]; rfl

theorem scalarLoop_pos (o : Ops F X K) (x : X) (l : List (F × K)) (hw : ∀ c ∈ l, 0 < c.2) (i : Nat) (a : K) :
    scalarLoop o x i l a = a + wsum (l.map fun c => (o.scalar c.1 x, c.2)) := by
  induction l generalizing i a with
  | nil => simp [scalarLoop, wsum]
  | cons c l ih =>
    unfold scalarLoop
    rw [if_pos (hw c (by simp)), ih (fun c hc => hw c (by simp [hc]))]
    simp only [wsum, List.map_cons, List.sum_cons]; ring

theorem scalarLoop_max (o : Ops F X K) (x : X) (l : List (F × K)) (hw : ∀ c ∈ l, ¬ 0 < c.2) (i : Nat) (hi : i ≠ 0) (a : K) :
    IsLargest (a :: l.map fun c => o.scalar c.1 x) (scalarLoop o x i l a) := by
  induction l generalizing i a with
  | nil => simp [scalarLoop, IsLargest]
  | cons c l ih =>
    unfold scalarLoop
    rw [if_neg (hw c (by simp))]
    have := ih (fun c hc => hw c (by simp [hc])) (i+1) (by omega) (if i = 0 ∨ o.scalar c.1 x > a then o.scalar c.1 x else a)
    obtain ⟨m1, m2⟩ := this
    unfold IsLargest
    simp only [List.mem_cons, forall_eq_or_imp, List.map_cons] at m1 m2 ⊢
    by_cases g : o.scalar c.1 x > a
    · rw [if_pos (Or.inr g)] at m1 m2 ⊢
      exact ⟨Or.inr m1, le_trans (le_of_lt g) m2.1, m2⟩
    · rw [if_neg (by simp [hi] at g ⊢; exact g)] at m1 m2 ⊢
      exact ⟨m1.imp id Or.inr, m2.1, le_trans (not_lt.mp g) m2.1, m2.2⟩

/-- The scalar value is the weighted sum of the scalar values with positive weights only, and the largest one of them without positive weights. -/
theorem C94_scalar_value (o : Ops F X K) (s : Sum F K) (x : X) :
    ((∀ c ∈ s.comps, 0 < c.2) → s.getScalarValue o x = wsum (s.comps.map fun c => (o.scalar c.1 x, c.2))) ∧
    (s.comps ≠ [] → (∀ c ∈ s.comps, ¬ 0 < c.2) → IsLargest (s.comps.map fun c => o.scalar c.1 x) (s.getScalarValue o x)) := by
  unfold Sum.getScalarValue
  refine ⟨fun hw => by rw [scalarLoop_pos o x _ hw, zero_add], fun hne hw => ?_⟩
  cases e : s.comps with
  | nil => exact absurd e hne
  | cons c l =>
    rw [e] at hw
    unfold scalarLoop
    rw [if_neg (hw c (by simp)), if_pos (Or.inl rfl)]
    exact scalarLoop_max o x l (fun c hc => hw c (by simp [hc])) 1 (by omega) _

theorem largest_unique (l l' : List K) (h : l.Perm l') (m m' : K) (h1 : IsLargest l m) (h2 : IsLargest l' m') : m = m' :=
  le_antisymm (h2.2 m (h.mem_iff.mp h1.1)) (h1.2 m' (h.mem_iff.mpr h2.1))

/-- The order of the functions does not matter if all weights are positive, or none is. -/
theorem C94_order (o : Ops F X K) (ho : Fits o) (s t : Sum F K) (hs : Same o s) (ht : Same o t) (hn : s.ncmp = t.ncmp) (hp : s.comps.Perm t.comps)
    (hw : (∀ c ∈ s.comps, 0 < c.2) ∨ (∀ c ∈ s.comps, ¬ 0 < c.2)) (x : X) : s.getValue o x = t.getValue o x := by
  have hl1 := C94_length o ho s hs x
  have hl2 := C94_length o ho t ht x
  apply List.ext_getElem (by rw [hl1, hl2, hn])
  intro j h1 h2
  have e : (s.getValue o x).getD j 0 = (t.getValue o x).getD j 0 := by
    rcases hw with hw | hw
    · rw [C94_sum o ho s hs hw, C94_sum o ho t ht (fun c hc => hw c (hp.mem_iff.mpr hc))]
      exact ((hp.map _).map _).sum_eq
    · by_cases e : s.comps = []
      · have e' : t.comps = [] := by rw [e] at hp; exact hp.nil_eq.symm
        unfold Sum.getValue; rw [e, e', hn]
      · have e' : t.comps ≠ [] := by intro e'; rw [e'] at hp; exact e hp.eq_nil
        exact largest_unique _ _ (hp.map _) _ _ (C94_max o ho s hs e hw x j (hl1 ▸ h1))
          (C94_max o ho t ht e' (fun c hc => hw c (hp.mem_iff.mpr hc)) x j (hl2 ▸ h2))
  simpa [h1, h2] using e

/-- Functions given by dimension, type and value. -/
def exOps : Ops (Nat × Nat × List ℚ) Unit ℚ :=
  ⟨(·.1), (·.2.1), fun f _ => f.2.1 == 1, fun f i => ((f.1, i, f.2.2), f.2.1 == 2), fun f _ => f.2.2.take f.1 ++ List.replicate (f.1 - f.2.2.length) 0,
   fun f _ => (f.2.2.take f.1 ++ List.replicate (f.1 - f.2.2.length) 0).getD 0 0⟩

theorem exFits : Fits exOps := by
  intro f x; simp [exOps]; omega

/-- The order matters for weights of both kinds: `max(2·1, 3) = 3`, but `3 + 2·1 = 5`. -/
theorem C94_order_matters :
    (Sum.addAll exOps Sum.empty [((1, 0, [1]), 2), ((1, 0, [3]), -1)]).1.getValue exOps () = [3] ∧
    (Sum.addAll exOps Sum.empty [((1, 0, [3]), -1), ((1, 0, [1]), 2)]).1.getValue exOps () = [5] := by decide +kernel

/-- Two functions with two components, and one that is refused. -/
example :
    let r := Sum.addAll exOps Sum.empty [((2, 1, [1, 5]), 2), ((3, 1, [1, 2, 3]), 1), ((2, 2, [10, 20]), 3)]
    r.2 = [true, false, true] ∧ r.1.getValue exOps () = [32, 70] ∧ r.1.getScalarValue exOps () = 32 ∧ r.1.getType exOps = 0 ∧ r.1.inDomain exOps () = true ∧
    (r.1.initPatch exOps 7).2 = true ∧ (∀ c ∈ r.1.comps, exOps.dim c.1 = r.1.ncmp) := by decide +kernel

end IFEM.FuncSum
