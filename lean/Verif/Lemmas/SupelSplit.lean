import Verif.Spec.Supel
import Verif.Props.SparseMore
import Mathlib.Data.List.Sort
/-! Splitting a system of equations into internal and retained ones. -/
namespace IFEM.Supel
open IFEM.Spec
variable {K : Type}

/-- The equations `ieq … ieq+n-1` in order, each of them the next one of the first list or of the second. -/
inductive Shuf : Nat → Nat → List Nat → List Nat → Prop
  | nil (ieq) : Shuf ieq 0 [] []
  | int {ieq n I E} : Shuf (ieq+1) n I E → (∀ e ∈ E, ieq < e) → Shuf ieq (n+1) (ieq :: I) E
  | ext {ieq n I E} : Shuf (ieq+1) n I E → Shuf ieq (n+1) I (ieq :: E)

theorem shuf_of_perm : ∀ (n ieq : Nat) (I E : List Nat), I.Pairwise (· < ·) → E.Pairwise (· < ·) → (I ++ E).Perm (List.range' ieq n) → Shuf ieq n I E
  | 0, ieq, I, E, _, _, h => by
    have := h.length_eq
    simp at this
    rw [this.1, this.2]
    exact .nil ieq
  | n+1, ieq, I, E, hI, hE, h => by
    have hm : ∀ x, x ∈ I ∨ x ∈ E ↔ ieq ≤ x ∧ x < ieq + (n+1) := by
      intro x; rw [← List.mem_append, h.mem_iff, List.mem_range'_1]
    have hn : (I ++ E).Nodup := h.nodup_iff.2 List.nodup_range'
    rw [List.nodup_append] at hn
    rw [List.range'_succ] at h
    rcases (hm ieq).2 ⟨le_refl _, by omega⟩ with h0 | h0
    · cases I with
      | nil => cases h0
      | cons a I =>
        have ha : a = ieq := by
          have h1 := (hm a).1 (.inl List.mem_cons_self)
          rcases List.mem_cons.1 h0 with h2 | h2
          · exact h2.symm
          · have := (List.pairwise_cons.1 hI).1 _ h2; omega
        subst ha
        refine .int (shuf_of_perm n _ I E (List.pairwise_cons.1 hI).2 hE ?_) ?_
        · exact (List.perm_cons _).1 h
        · intro e he
          have h1 := (hm e).1 (.inr he)
          have := hn.2.2 a List.mem_cons_self e he
          omega
    · cases E with
      | nil => cases h0
      | cons a E =>
        have ha : a = ieq := by
          have h1 := (hm a).1 (.inr List.mem_cons_self)
          rcases List.mem_cons.1 h0 with h2 | h2
          · exact h2.symm
          · have := (List.pairwise_cons.1 hE).1 _ h2; omega
        subst ha
        refine .ext (shuf_of_perm n _ I E hI (List.pairwise_cons.1 hE).2 ?_)
        exact (List.perm_cons _).1 (List.perm_middle.symm.trans h)

/-- The equation numbers. -/
def nums (E : List Nat) : List Int := E.map fun e : Nat => (e : Int) + 1

theorem shuf_ge {ieq n : Nat} {I E : List Nat} (h : Shuf ieq n I E) : (∀ p ∈ I, ieq ≤ p) ∧ ∀ p ∈ E, ieq ≤ p := by
  induction h with
  | nil => simp
  | int h h1 ih =>
    refine ⟨?_, fun p hp => by have := ih.2 p hp; omega⟩
    intro p hp
    rcases List.mem_cons.1 hp with rfl | hp
    · omega
    · have := ih.1 p hp; omega
  | ext h ih =>
    refine ⟨fun p hp => by have := ih.1 p hp; omega, ?_⟩
    intro p hp
    rcases List.mem_cons.1 hp with rfl | hp
    · omega
    · have := ih.2 p hp; omega

theorem drop_cons {α : Type} {l : List α} {k : Nat} {a : α} {t : List α} (h : l.drop k = a :: t) : l[k]? = some a ∧ l.drop (k+1) = t := by
  have h1 : l[k]? = some a := by
    have := congrArg (·[0]?) h
    simpa using this
  refine ⟨h1, ?_⟩
  rw [← List.drop_drop, h]; rfl

theorem drop_nil' {α : Type} {l : List α} {k : Nat} (h : l.drop k = []) : l[k]? = none := by
  have := congrArg (·[0]?) h
  simpa using this

theorem eqnLoop_spec (meqn2 : List Int) {ieq n : Nat} {I E : List Nat} (h : Shuf ieq n I E) :
    ∀ (ip2 i1 i2 : Nat), meqn2.drop ip2 = nums E →
      (∀ (k p : Nat), I[k]? = some p → (eqnLoop meqn2 n ieq ip2 i1 i2)[p - ieq]? = some ((i1 : Int) + k + 1)) ∧
      ∀ (k p : Nat), E[k]? = some p → (eqnLoop meqn2 n ieq ip2 i1 i2)[p - ieq]? = some (-((i2 : Int) + k + 1)) := by
  induction h with
  | nil => intro ip2 i1 i2 _; simp
  | @int ieq n I E h h1 ih =>
    intro ip2 i1 i2 hd
    have hge := shuf_ge h
    have hstep : eqnLoop meqn2 (n+1) ieq ip2 i1 i2 = ((i1 : Int) + 1) :: eqnLoop meqn2 n (ieq+1) ip2 (i1+1) i2 := by
      rw [eqnLoop]
      cases E with
      | nil => rw [drop_nil' hd]
      | cons e E =>
        rw [(drop_cons hd).1]
        have := h1 e List.mem_cons_self
        dsimp only
        rw [if_pos (by omega)]
    obtain ⟨g1, g2⟩ := ih ip2 (i1+1) i2 hd
    rw [hstep]
    constructor
    · intro k p hp
      cases k with
      | zero =>
        simp at hp; subst hp; simp
      | succ k =>
        simp at hp
        have := hge.1 p (List.mem_of_getElem? hp)
        have hx := g1 k p hp
        rw [show p - ieq = (p - (ieq+1)) + 1 by omega, List.getElem?_cons_succ, hx]
        push_cast; congr 1; ring
    · intro k p hp
      have := hge.2 p (List.mem_of_getElem? hp)
      rw [show p - ieq = (p - (ieq+1)) + 1 by omega, List.getElem?_cons_succ, g2 k p hp]
  | @ext ieq n I E h ih =>
    intro ip2 i1 i2 hd
    have hge := shuf_ge h
    obtain ⟨d1, d2⟩ := drop_cons hd
    have hstep : eqnLoop meqn2 (n+1) ieq ip2 i1 i2 = (-((i2 : Int) + 1)) :: eqnLoop meqn2 n (ieq+1) (ip2+1) i1 (i2+1) := by
      rw [eqnLoop]
      rw [d1]
      dsimp only
      rw [if_neg (by omega)]
    obtain ⟨g1, g2⟩ := ih (ip2+1) i1 (i2+1) d2
    rw [hstep]
    constructor
    · intro k p hp
      have := hge.1 p (List.mem_of_getElem? hp)
      rw [show p - ieq = (p - (ieq+1)) + 1 by omega, List.getElem?_cons_succ, g1 k p hp]
    · intro k p hp
      cases k with
      | zero =>
        simp at hp; subst hp; simp
      | succ k =>
        simp at hp
        have := hge.2 p (List.mem_of_getElem? hp)
        have hx := g2 k p hp
        rw [show p - ieq = (p - (ieq+1)) + 1 by omega, List.getElem?_cons_succ, hx]
        push_cast; congr 1; ring

variable [Field K]

/-- The right-hand side is split as the equations are, provided the last equation is retained. -/
theorem vecLoop_spec (meqn2 : List Int) (R : List K) (n1 n2 : Nat) {ieq n : Nat} {I E : List Nat} (h : Shuf ieq n I E) :
    ∀ (ip2 : Nat) (r1 r2 : List K), meqn2.drop ip2 = nums E → (0 < n → ieq + n - 1 ∈ E) → ieq + n ≤ R.length → r1.length + I.length = n1 → r2.length + E.length = n2 →
      vecLoop meqn2 R n1 n2 n ieq ip2 r1 r2 = some (r1 ++ I.map (fun p => R.getD p 0), r2 ++ E.map fun p => R.getD p 0) := by
  induction h with
  | nil =>
    intro ip2 r1 r2 _ _ _ e1 e2
    simp at e1 e2
    subst e1 e2
    simp [vecLoop, Sparse.resizeTo]
  | @int ieq n I E h h1 ih =>
    intro ip2 r1 r2 hd hl hR e1 e2
    have hm := hl (by omega)
    cases E with
    | nil => cases hm
    | cons e E =>
      unfold vecLoop
      have := h1 e List.mem_cons_self
      rw [(drop_cons hd).1, List.getElem?_eq_getElem (by omega : ieq < R.length)]
      dsimp only
      simp only [List.length_cons] at e1
      rw [if_pos (by omega), if_pos (by omega)]
      rw [ih ip2 _ r2 hd (fun hn => by rw [show ieq + 1 + n - 1 = ieq + (n+1) - 1 by omega]; exact hm) (by omega) (by simp; omega) e2]
      simp [List.getD_eq_getElem?_getD, List.getElem?_eq_getElem (by omega : ieq < R.length)]
  | @ext ieq n I E h ih =>
    intro ip2 r1 r2 hd hl hR e1 e2
    have hm := hl (by omega)
    obtain ⟨d1, d2⟩ := drop_cons hd
    unfold vecLoop
    rw [d1, List.getElem?_eq_getElem (by omega : ieq < R.length)]
    dsimp only
    simp only [List.length_cons] at e2
    rw [if_neg (by omega), if_pos (by omega)]
    rw [ih (ip2+1) r1 _ d2 (fun hn => by
      rw [show ieq + 1 + n - 1 = ieq + (n+1) - 1 by omega]
      rcases List.mem_cons.1 hm with h0 | h0
      · omega
      · exact h0) (by omega) e1 (by simp; omega)]
    simp [List.getD_eq_getElem?_getD, List.getElem?_eq_getElem (by omega : ieq < R.length)]

/-- The full vector is put together as the equations are, provided the last equation is retained. -/
theorem mergeLoop_spec (meqn2 : List Int) (x1 xe : List K) {ieq n : Nat} {I E : List Nat} (h : Shuf ieq n I E) :
    ∀ (ip2 i1 i2 : Nat), meqn2.drop ip2 = nums E → (0 < n → ieq + n - 1 ∈ E) → i1 + I.length = x1.length → i2 + E.length = xe.length →
      ∃ x, mergeLoop meqn2 x1 xe n ieq ip2 i1 i2 = some x ∧ x.length = n ∧
        (∀ (k p : Nat), I[k]? = some p → x[p - ieq]? = x1[i1 + k]?) ∧ ∀ (k p : Nat), E[k]? = some p → x[p - ieq]? = xe[i2 + k]? := by
  induction h with
  | nil => intro ip2 i1 i2 _ _ _ _; exact ⟨[], rfl, rfl, by simp, by simp⟩
  | @int ieq n I E h h1 ih =>
    intro ip2 i1 i2 hd hl e1 e2
    have hge := shuf_ge h
    have hm := hl (by omega)
    cases E with
    | nil => cases hm
    | cons e E =>
      have := h1 e List.mem_cons_self
      simp only [List.length_cons] at e1
      obtain ⟨x, g1, g2, g3, g4⟩ := ih ip2 (i1+1) i2 hd (fun hn => by rw [show ieq + 1 + n - 1 = ieq + (n+1) - 1 by omega]; exact hm) (by omega) e2
      refine ⟨x1[i1]'(by omega) :: x, ?_, by simp [g2], ?_, ?_⟩
      · unfold mergeLoop
        rw [(drop_cons hd).1]
        dsimp only
        rw [if_pos (by omega), List.getElem?_eq_getElem (by omega : i1 < x1.length), g1]
        rfl
      · intro k p hp
        cases k with
        | zero =>
          simp at hp; subst hp
          simp [List.getElem?_eq_getElem (by omega : i1 < x1.length)]
        | succ k =>
          simp at hp
          have := hge.1 p (List.mem_of_getElem? hp)
          rw [show p - ieq = (p - (ieq+1)) + 1 by omega, List.getElem?_cons_succ, g3 k p hp]
          congr 1; omega
      · intro k p hp
        have := hge.2 p (List.mem_of_getElem? hp)
        rw [show p - ieq = (p - (ieq+1)) + 1 by omega, List.getElem?_cons_succ, g4 k p hp]
  | @ext ieq n I E h ih =>
    intro ip2 i1 i2 hd hl e1 e2
    have hge := shuf_ge h
    have hm := hl (by omega)
    obtain ⟨d1, d2⟩ := drop_cons hd
    simp only [List.length_cons] at e2
    obtain ⟨x, g1, g2, g3, g4⟩ := ih (ip2+1) i1 (i2+1) d2 (fun hn => by
      rw [show ieq + 1 + n - 1 = ieq + (n+1) - 1 by omega]
      rcases List.mem_cons.1 hm with h0 | h0
      · omega
      · exact h0) e1 (by omega)
    refine ⟨xe[i2]'(by omega) :: x, ?_, by simp [g2], ?_, ?_⟩
    · unfold mergeLoop
      rw [d1]
      dsimp only
      rw [if_neg (by omega), List.getElem?_eq_getElem (by omega : i2 < xe.length), g1]
      rfl
    · intro k p hp
      have := hge.1 p (List.mem_of_getElem? hp)
      rw [show p - ieq = (p - (ieq+1)) + 1 by omega, List.getElem?_cons_succ, g3 k p hp]
    · intro k p hp
      cases k with
      | zero =>
        simp at hp; subst hp
        simp [List.getElem?_eq_getElem (by omega : i2 < xe.length)]
      | succ k =>
        simp at hp
        have := hge.2 p (List.mem_of_getElem? hp)
        rw [show p - ieq = (p - (ieq+1)) + 1 by omega, List.getElem?_cons_succ, g4 k p hp]
        congr 1; omega

/-- If the last equation is internal, the loop for the right-hand side reads past the end of the equation list. -/
theorem vecLoop_fails (meqn2 : List Int) (R : List K) (n1 n2 : Nat) {ieq n : Nat} {I E : List Nat} (h : Shuf ieq n I E) :
    ∀ (ip2 : Nat) (r1 r2 : List K), meqn2.drop ip2 = nums E → 0 < n → ieq + n - 1 ∉ E → vecLoop meqn2 R n1 n2 n ieq ip2 r1 r2 = none := by
  induction h with
  | nil => intro ip2 r1 r2 _ h0; omega
  | @int ieq n I E h h1 ih =>
    intro ip2 r1 r2 hd _ hl
    unfold vecLoop
    cases E with
    | nil => rw [drop_nil' hd]
    | cons e E =>
      have := h1 e List.mem_cons_self
      rw [(drop_cons hd).1]
      cases hR : R[ieq]? with
      | none => rfl
      | some v =>
        dsimp only
        rw [if_pos (by omega)]
        split
        · cases n with
          | zero => cases h
          | succ n => exact ih ip2 _ r2 hd (by omega) (by rw [show ieq + 1 + (n+1) - 1 = ieq + (n+1+1) - 1 by omega]; exact hl)
        · rfl
  | @ext ieq n I E h ih =>
    intro ip2 r1 r2 hd _ hl
    obtain ⟨d1, d2⟩ := drop_cons hd
    unfold vecLoop
    rw [d1]
    cases hR : R[ieq]? with
    | none => rfl
    | some v =>
      dsimp only
      rw [if_neg (by omega)]
      split
      · cases n with
        | zero => simp at hl
        | succ n => exact ih (ip2+1) r1 _ d2 (by omega) (by
            rw [show ieq + 1 + (n+1) - 1 = ieq + (n+1+1) - 1 by omega]
            exact fun h => hl (List.mem_cons_of_mem _ h))
      · rfl

/-- The same for the full vector. -/
theorem mergeLoop_fails (meqn2 : List Int) (x1 xe : List K) {ieq n : Nat} {I E : List Nat} (h : Shuf ieq n I E) :
    ∀ (ip2 i1 i2 : Nat), meqn2.drop ip2 = nums E → 0 < n → ieq + n - 1 ∉ E → mergeLoop meqn2 x1 xe n ieq ip2 i1 i2 = none := by
  induction h with
  | nil => intro ip2 i1 i2 _ h0; omega
  | @int ieq n I E h h1 ih =>
    intro ip2 i1 i2 hd _ hl
    unfold mergeLoop
    cases E with
    | nil => rw [drop_nil' hd]
    | cons e E =>
      have := h1 e List.mem_cons_self
      rw [(drop_cons hd).1]
      dsimp only
      rw [if_pos (by omega)]
      cases x1[i1]? with
      | none => rfl
      | some v =>
        cases n with
        | zero => cases h
        | succ n =>
          dsimp only
          rw [ih ip2 _ i2 hd (by omega) (by rw [show ieq + 1 + (n+1) - 1 = ieq + (n+1+1) - 1 by omega]; exact hl)]
          rfl
  | @ext ieq n I E h ih =>
    intro ip2 i1 i2 hd _ hl
    obtain ⟨d1, d2⟩ := drop_cons hd
    unfold mergeLoop
    rw [d1]
    dsimp only
    rw [if_neg (by omega)]
    cases xe[i2]? with
    | none => rfl
    | some v =>
      cases n with
      | zero => simp at hl
      | succ n =>
        dsimp only
        rw [ih (ip2+1) i1 _ d2 (by omega) (by
            rw [show ieq + 1 + (n+1) - 1 = ieq + (n+1+1) - 1 by omega]
            exact fun h => hl (List.mem_cons_of_mem _ h))]
        rfl

end IFEM.Supel
