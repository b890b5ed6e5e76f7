import Verif.Spec.BlockMats
import Mathlib.Algebra.Order.BigOperators.Group.Finset
import Mathlib.Algebra.BigOperators.Ring.Finset
import Mathlib.Tactic.Ring
import Mathlib.Tactic.Linarith
/-!
# C73: the degrees of freedom of an element with blocks
-/
namespace IFEM.Props
open IFEM IFEM.Blk IFEM.Spec.Blk

theorem psum_mono (f : Nat → Nat) {a b : Nat} (h : a ≤ b) : ∑ i ∈ Finset.range a, f i ≤ ∑ i ∈ Finset.range b, f i :=
  Finset.sum_le_sum_of_subset (Finset.range_mono h)

/-- A number below a sum lies in one of its summands. -/
theorem locate_sum (f : Nat → Nat) (n d : Nat) (h : d < ∑ i ∈ Finset.range n, f i) :
    ∃ k, k < n ∧ ∑ i ∈ Finset.range k, f i ≤ d ∧ d < ∑ i ∈ Finset.range k, f i + f k := by
  induction n with
  | zero => simp at h
  | succ n ih =>
    by_cases h' : d < ∑ i ∈ Finset.range n, f i
    · obtain ⟨k, a, b⟩ := ih h'
      exact ⟨k, by omega, b⟩
    · rw [Finset.sum_range_succ] at h
      exact ⟨n, by omega, by omega, h⟩

/-- In only one of them. -/
theorem locate_unique (f : Nat → Nat) {k l x y : Nat} (hx : x < f k) (hy : y < f l)
    (h : ∑ i ∈ Finset.range k, f i + x = ∑ i ∈ Finset.range l, f i + y) : k = l := by
  rcases Nat.lt_trichotomy k l with hl | hl | hl
  · have := psum_mono f (Nat.succ_le_of_lt hl)
    rw [Finset.sum_range_succ] at this
    omega
  · exact hl
  · have := psum_mono f (Nat.succ_le_of_lt hl)
    rw [Finset.sum_range_succ] at this
    omega

variable (c : Config)

/-- The components of a block lie among those of its basis. -/
theorem before_lt {k i : Nat} (hk : k < c.nBlk) (hi : i < c.cmp k) : c.before k + i < c.tot (c.bas k) := by
  have := psum_mono (fun i => if c.bas i = c.bas k then c.cmp i else 0) (Nat.succ_le_of_lt hk)
  rw [Finset.sum_range_succ, if_pos rfl] at this
  unfold Config.before Config.tot
  omega

theorem size_eq : c.start c.nBas = c.size := by
  unfold Config.start Config.size Config.tot
  simp only [Finset.mul_sum]
  rw [Finset.sum_comm]
  refine Finset.sum_congr rfl fun k hk => ?_
  rw [Finset.sum_eq_single (c.bas k)]
  · rw [if_pos rfl]
  · intro j _ hj
    rw [if_neg (fun h => hj h.symm), mul_zero]
  · intro h
    exact absurd (Finset.mem_range.2 (c.valid k (Finset.mem_range.1 hk))) h

/-- A position in a basis. -/
theorem in_basis {k a i : Nat} (h : c.Has k a i) : a * c.tot (c.bas k) + (c.before k + i) < c.nen (c.bas k) * c.tot (c.bas k) := by
  have h1 := before_lt c h.1 h.2.2
  have h2 : (a + 1) * c.tot (c.bas k) ≤ c.nen (c.bas k) * c.tot (c.bas k) := Nat.mul_le_mul_right _ h.2.1
  rw [Nat.add_mul, one_mul] at h2
  omega

/-- **C73** The degrees of freedom of all blocks, nodes and components are numbered without gaps or
overlaps: every number below the size of the element belongs to exactly one of them. -/
theorem C73_numbering :
    (∀ k a i, c.Has k a i → c.dof k a i < c.size) ∧
    (∀ k a i l b j, c.Has k a i → c.Has l b j → c.dof k a i = c.dof l b j → k = l ∧ a = b ∧ i = j) ∧
    (∀ d, d < c.size → ∃ k a i, c.Has k a i ∧ c.dof k a i = d) := by
  refine ⟨fun k a i h => ?_, fun k a i l b j h h' e => ?_, fun d hd => ?_⟩
  · have h1 := in_basis c h
    have h2 := psum_mono (fun i => c.nen i * c.tot i) (Nat.succ_le_of_lt (c.valid k h.1))
    rw [Finset.sum_range_succ] at h2
    rw [← size_eq]
    unfold Config.dof Config.start
    omega
  · unfold Config.dof at e
    have hb := locate_unique (fun i => c.nen i * c.tot i) (in_basis c h) (in_basis c h') e
    rw [hb] at e
    have e := Nat.add_left_cancel e
    have h1 := before_lt c h.1 h.2.2
    have h2 := before_lt c h'.1 h'.2.2
    rw [hb] at h1
    have ha : a = b := by
      rcases Nat.lt_trichotomy a b with hl | hl | hl
      · have := Nat.mul_le_mul_right (c.tot (c.bas l)) (Nat.succ_le_of_lt hl)
        rw [Nat.succ_mul] at this
        omega
      · exact hl
      · have := Nat.mul_le_mul_right (c.tot (c.bas l)) (Nat.succ_le_of_lt hl)
        rw [Nat.succ_mul] at this
        omega
    subst ha
    have e := Nat.add_left_cancel e
    unfold Config.before at e
    rw [hb] at e
    have hk := locate_unique (fun i => if c.bas i = c.bas l then c.cmp i else 0) (k := k) (l := l) (x := i) (y := j)
      (by rw [if_pos hb]; exact h.2.2) (by rw [if_pos rfl]; exact h'.2.2) e
    subst hk
    exact ⟨rfl, rfl, by omega⟩
  · rw [← size_eq] at hd
    obtain ⟨j, _, h1, h2⟩ := locate_sum _ _ _ hd
    have ht : 0 < c.tot j := by
      rcases Nat.eq_zero_or_pos (c.tot j) with h | h
      · rw [h, mul_zero] at h2; omega
      · exact h
    obtain ⟨r, hr⟩ : ∃ r, d = ∑ i ∈ Finset.range j, c.nen i * c.tot i + r := ⟨_, (Nat.add_sub_cancel' h1).symm⟩
    have hm : r % c.tot j < ∑ k ∈ Finset.range c.nBlk, if c.bas k = j then c.cmp k else 0 := Nat.mod_lt _ ht
    obtain ⟨k, hk, h3, h4⟩ := locate_sum _ _ _ hm
    have hb : c.bas k = j := by
      by_contra hn
      rw [if_neg hn] at h4
      omega
    rw [if_pos hb] at h4
    subst hb
    obtain ⟨i, hi⟩ : ∃ i, r % c.tot (c.bas k) = c.before k + i := ⟨_, (Nat.add_sub_cancel' h3).symm⟩
    refine ⟨k, r / c.tot (c.bas k), i, ⟨hk, Nat.div_lt_of_lt_mul ?_, ?_⟩, ?_⟩
    · rw [mul_comm]; omega
    · unfold Config.before at hi; omega
    · unfold Config.dof Config.start
      rw [← hi, hr, mul_comm (r / _), Nat.div_add_mod]

end IFEM.Props
