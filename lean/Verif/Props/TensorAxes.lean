import Verif.Props.TensorRot
import Mathlib.Tactic.Positivity
/-!
# C68: tensors — local axes from a normal or from two tangents
-/
namespace IFEM.Tens
open IFEM.Mapping Matrix

/-- The scalar product. -/
def dot (a b : V3) : ℝ := a.x*b.x + a.y*b.y + a.z*b.z

/-- A vector divided by its length. -/
noncomputable def unit (a : V3) : V3 := ⟨a.x/a.length, a.y/a.length, a.z/a.length⟩

/-- The tensor of three orthonormal right-handed columns. -/
def IsFrame (T : Tensor) (e1 e2 e3 : V3) : Prop :=
  T = ofMat !![e1.x, e2.x, e3.x; e1.y, e2.y, e3.y; e1.z, e2.z, e3.z] ∧ IsRotation T

theorem transform3_eq (a b c : V3) : transform3 a b c = ofMat !![a.x, b.x, c.x; a.y, b.y, c.y; a.z, b.z, c.z] := by
  rw [ofMat3_eq]; simp [transform3]

/-- Two orthogonal unit vectors and their vector product. -/
theorem frame_of (a b c : V3) (ha : dot a a = 1) (hb : dot b b = 1) (hab : dot a b = 0) (hc : c = V3.cross a b) : IsFrame (transform3 a b c) a b c := by
  refine ⟨transform3_eq a b c, _, transform3_eq a b c, ?_, ?_⟩
  all_goals subst hc
  all_goals obtain ⟨x, y, z⟩ := a
  all_goals obtain ⟨u, v, w⟩ := b
  all_goals simp only [dot, V3.cross] at *
  · ext i j
    fin_cases i <;> fin_cases j <;> simp [Matrix.mul_apply, Fin.sum_univ_three]
    · linear_combination ha
    · linear_combination hab
    · ring
    · linear_combination hab
    · linear_combination hb
    · ring
    · ring
    · ring
    · linear_combination (x*x+y*y+z*z)*hb + ha - (x*u+y*v+z*w)*hab
  · rw [det_fin_three]; simp
    linear_combination (x*x+y*y+z*z)*hb + ha - (x*u+y*v+z*w)*hab

theorem frame_of2 (a b c : V3) (ha : dot a a = 1) (hc : dot c c = 1) (hac : dot a c = 0) (hb : b = V3.cross c a) : IsFrame (transform3 a b c) a b c := by
  subst hb
  apply frame_of
  · exact ha
  · simp only [dot, V3.cross] at *
    linear_combination (a.x*a.x+a.y*a.y+a.z*a.z)*hc + ha - (a.x*c.x+a.y*c.y+a.z*c.z)*hac
  · simp only [dot, V3.cross]; ring
  · obtain ⟨x, y, z⟩ := a
    obtain ⟨u, v, w⟩ := c
    simp only [dot, V3.cross] at *
    congr 1
    · linear_combination (-u)*ha + x*hac
    · linear_combination (-v)*ha + y*hac
    · linear_combination (-w)*ha + z*hac

theorem frame_of3 (a b c : V3) (hb : dot b b = 1) (hc : dot c c = 1) (hbc : dot b c = 0) (ha : a = V3.cross b c) : IsFrame (transform3 a b c) a b c := by
  subst ha
  apply frame_of2
  · simp only [dot, V3.cross] at *
    linear_combination (b.x*b.x+b.y*b.y+b.z*b.z)*hc + hb - (b.x*c.x+b.y*c.y+b.z*c.z)*hbc
  · exact hc
  · simp only [dot, V3.cross]; ring
  · obtain ⟨x, y, z⟩ := b
    obtain ⟨u, v, w⟩ := c
    simp only [dot, V3.cross] at *
    congr 1
    · linear_combination (-x)*hc + u*hbc
    · linear_combination (-y)*hc + v*hbc
    · linear_combination (-z)*hc + w*hbc

theorem tol_pos : (0:ℝ) < 1/10^16 := by positivity

theorem norm_unit (a : V3) (h : (1/10^16 : ℝ) < a.length) : a.normalize.1 = unit a := by
  rw [V3.normalize]
  rw [if_neg (not_le.2 h)]; rfl

theorem unit_dot (a : V3) (h : (1/10^16 : ℝ) < a.length) : dot (unit a) (unit a) = 1 := by
  have hp : 0 < a.length := tol_pos.trans h
  have hl := len_sq a
  have : dot (unit a) (unit a) = (a.x*a.x + a.y*a.y + a.z*a.z)/a.length^2 := by simp only [dot, unit]; field_simp
  rw [this, ← hl]; field_simp

/-- Normalizing a vector `w` orthogonal to the unit vector `u`, and their vector product. -/
theorem cross_unit (u w : V3) (hu : dot u u = 1) (huw : dot u w = 0) (h : (1/10^16 : ℝ) < w.length) :
    (V3.cross u w).normalize.1 = V3.cross u (unit w) ∧ (V3.cross w u).normalize.1 = V3.cross (unit w) u ∧ dot u (unit w) = 0 := by
  have hp : 0 < w.length := tol_pos.trans h
  have key : (V3.cross u w).length = w.length := by
    rw [V3.length, V3.length]; congr 1
    simp only [V3.cross, dot] at *
    linear_combination (w.x*w.x+w.y*w.y+w.z*w.z)*hu - (u.x*w.x+u.y*w.y+u.z*w.z)*huw
  have key2 : (V3.cross w u).length = w.length := by
    rw [V3.length, V3.length]; congr 1
    simp only [V3.cross, dot] at *
    linear_combination (w.x*w.x+w.y*w.y+w.z*w.z)*hu - (u.x*w.x+u.y*w.y+u.z*w.z)*huw
  refine ⟨?_, ?_, ?_⟩
  · rw [norm_unit _ (by rw [key]; exact h), unit, key]
    simp only [V3.cross, unit]; congr 1 <;> ring
  · rw [norm_unit _ (by rw [key2]; exact h), unit, key2]
    simp only [V3.cross, unit]; congr 1 <;> ring
  · simp only [dot, unit] at *
    have : u.x*(w.x/w.length) + u.y*(w.y/w.length) + u.z*(w.z/w.length) = (u.x*w.x + u.y*w.y + u.z*w.z)/w.length := by ring
    rw [this, huw, zero_div]

theorem big_len (w : V3) (h : 1/4 ≤ dot w w) : (1/10^16 : ℝ) < w.length := by
  rw [V3.length]
  have : (1/2 : ℝ) ≤ Real.sqrt (w.x*w.x + w.y*w.y + w.z*w.z) := by
    apply Real.le_sqrt_of_sq_le; simp only [dot] at h; linarith
  have : (1/10^16 : ℝ) < 1/2 := by norm_num
  linarith

theorem sq_lt_of_abs {a b : ℝ} (h : |a| < |b|) : a*a < b*b := by
  have := sq_lt_sq.2 h; linarith [sq a, sq b]
theorem sq_le_of_abs {a b : ℝ} (h : |a| ≤ |b|) : a*a ≤ b*b := by
  have := sq_le_sq.2 h; linarith [sq a, sq b]

/-- **C68 (axes from a normal vector).**  For a vector that is not too short, the columns of the tensor are right-handed local axes, the X-axis or the Z-axis being along the vector. -/
theorem C68_normal (vn : V3) (h : (1/10^16 : ℝ) < vn.length) :
    (∃ e2 e3, IsFrame (ofNormal vn true) (unit vn) e2 e3) ∧ (∃ e1 e2, IsFrame (ofNormal vn false) e1 e2 (unit vn)) := by
  have hu := unit_dot vn h
  constructor
  · rw [ofNormal, norm_unit vn h]
    dsimp only
    rw [if_pos rfl]
    generalize unit vn = u at hu
    have hu' := hu
    simp only [dot] at hu'
    have q1 := mul_self_nonneg u.x; have q2 := mul_self_nonneg u.y; have q3 := mul_self_nonneg u.z
    split_ifs with hc
    · have hlt := sq_lt_of_abs hc
      have hw : dot u ⟨-u.y*u.x, u.x*u.x + u.z*u.z, -u.y*u.z⟩ = 0 := by simp only [dot]; ring
      have hl : (1/10^16 : ℝ) < (⟨-u.y*u.x, u.x*u.x + u.z*u.z, -u.y*u.z⟩ : V3).length := by
        apply big_len
        have : dot ⟨-u.y*u.x, u.x*u.x + u.z*u.z, -u.y*u.z⟩ ⟨-u.y*u.x, u.x*u.x + u.z*u.z, -u.y*u.z⟩ = u.x*u.x + u.z*u.z := by
          simp only [dot]; linear_combination (u.x*u.x + u.z*u.z)*hu'
        rw [this]; linarith
      obtain ⟨c1, c2, c3⟩ := cross_unit u _ hu hw hl
      rw [c1, norm_unit _ hl]
      exact ⟨_, _, frame_of _ _ _ hu (unit_dot _ hl) c3 rfl⟩
    · have hle := sq_le_of_abs (not_lt.1 hc)
      have hw : dot u ⟨-u.z*u.x, -u.z*u.y, u.x*u.x + u.y*u.y⟩ = 0 := by simp only [dot]; ring
      have hl : (1/10^16 : ℝ) < (⟨-u.z*u.x, -u.z*u.y, u.x*u.x + u.y*u.y⟩ : V3).length := by
        apply big_len
        have : dot ⟨-u.z*u.x, -u.z*u.y, u.x*u.x + u.y*u.y⟩ ⟨-u.z*u.x, -u.z*u.y, u.x*u.x + u.y*u.y⟩ = u.x*u.x + u.y*u.y := by
          simp only [dot]; linear_combination (u.x*u.x + u.y*u.y)*hu'
        rw [this]; linarith
      obtain ⟨c1, c2, c3⟩ := cross_unit u _ hu hw hl
      rw [c2, norm_unit _ hl]
      exact ⟨_, _, frame_of2 _ _ _ hu (unit_dot _ hl) c3 rfl⟩
  · rw [ofNormal, norm_unit vn h]
    dsimp only
    rw [if_neg (by decide)]
    generalize unit vn = u at hu
    have hu' := hu
    simp only [dot] at hu'
    have q1 := mul_self_nonneg u.x; have q2 := mul_self_nonneg u.y; have q3 := mul_self_nonneg u.z
    split_ifs with hc
    · have hlt := sq_lt_of_abs hc
      have hw : dot u ⟨-u.y*u.x, u.x*u.x + u.z*u.z, -u.y*u.z⟩ = 0 := by simp only [dot]; ring
      have hl : (1/10^16 : ℝ) < (⟨-u.y*u.x, u.x*u.x + u.z*u.z, -u.y*u.z⟩ : V3).length := by
        apply big_len
        have : dot ⟨-u.y*u.x, u.x*u.x + u.z*u.z, -u.y*u.z⟩ ⟨-u.y*u.x, u.x*u.x + u.z*u.z, -u.y*u.z⟩ = u.x*u.x + u.z*u.z := by
          simp only [dot]; linear_combination (u.x*u.x + u.z*u.z)*hu'
        rw [this]; linarith
      obtain ⟨c1, c2, c3⟩ := cross_unit u _ hu hw hl
      rw [c2, norm_unit _ hl]
      exact ⟨_, _, frame_of3 _ _ _ (unit_dot _ hl) hu (by simp only [dot] at c3 ⊢; linarith) rfl⟩
    · have hle := sq_le_of_abs (not_lt.1 hc)
      have hw : dot u ⟨u.y*u.y + u.z*u.z, -u.x*u.y, -u.x*u.z⟩ = 0 := by simp only [dot]; ring
      have hl : (1/10^16 : ℝ) < (⟨u.y*u.y + u.z*u.z, -u.x*u.y, -u.x*u.z⟩ : V3).length := by
        apply big_len
        have : dot ⟨u.y*u.y + u.z*u.z, -u.x*u.y, -u.x*u.z⟩ ⟨u.y*u.y + u.z*u.z, -u.x*u.y, -u.x*u.z⟩ = u.y*u.y + u.z*u.z := by
          simp only [dot]; linear_combination (u.y*u.y + u.z*u.z)*hu'
        rw [this]; linarith
      obtain ⟨c1, c2, c3⟩ := cross_unit u _ hu hw hl
      rw [c1, norm_unit _ hl]
      exact ⟨_, _, frame_of2 _ _ _ (unit_dot _ hl) hu (by simp only [dot] at c3 ⊢; linarith) rfl⟩

example : ∃ vn : V3, (1/10^16 : ℝ) < vn.length ∧ vn.x ≠ 0 ∧ vn.y ≠ 0 := by
  refine ⟨⟨1, 2, 3⟩, ?_, one_ne_zero, two_ne_zero⟩
  exact big_len _ (by simp only [dot]; norm_num)

/-- **C68 (axes from two tangents).**  For tangents that span a plane, the columns of the tensor are right-handed local axes, the first tangent being along the local X-axis (Z-axis if asked for).
Of the remaining two axes in cyclic order, the second tangent has no component along the second one and a positive component along the first one, or the other way round if `t2isXZ`. -/
theorem C68_tangents (t1 t2 : V3) (h1 : (1/10^16 : ℝ) < t1.length) (h2 : (1/10^16 : ℝ) < (V3.cross t1 t2).length) (t1isZ t2isXZ : Bool) :
    ∃ e2 e3, (if t1isZ then IsFrame (ofTangents t1 t2 t1isZ t2isXZ) e2 e3 (unit t1) else IsFrame (ofTangents t1 t2 t1isZ t2isXZ) (unit t1) e2 e3) ∧
      (if t2isXZ then dot t2 e2 = 0 ∧ 0 < dot t2 e3 else dot t2 e3 = 0 ∧ 0 < dot t2 e2) := by
  have hu := unit_dot t1 h1
  have hp1 : 0 < t1.length := tol_pos.trans h1
  have hp2 : 0 < (V3.cross t1 t2).length := tol_pos.trans h2
  have hL := len_sq (V3.cross t1 t2)
  have hlen : (V3.cross t2 t1).length = (V3.cross t1 t2).length := by
    rw [V3.length, V3.length]; congr 1; simp only [V3.cross]; ring
  have hl2 : (1/10^16 : ℝ) < (V3.cross t2 t1).length := by rw [hlen]; exact h2
  set L := (V3.cross t1 t2).length
  set l := t1.length with hl
  cases t2isXZ with
  | true =>
    have d12 : dot (unit t1) (unit (V3.cross t2 t1)) = 0 := by
      simp only [dot, unit, V3.cross]; ring
    refine ⟨unit (V3.cross t2 t1), V3.cross (unit t1) (unit (V3.cross t2 t1)), ?_, ?_⟩
    · rw [ofTangents]
      simp only [if_true, norm_unit t1 h1, norm_unit _ hl2]
      cases t1isZ with
      | true => exact frame_of2 _ _ _ (unit_dot _ hl2) hu (by simp only [dot] at d12 ⊢; linarith) rfl
      | false => exact frame_of _ _ _ hu (unit_dot _ hl2) d12 rfl
    · simp only [if_true]
      constructor
      · simp only [dot, unit, V3.cross]; ring
      · have : dot t2 (V3.cross (unit t1) (unit (V3.cross t2 t1))) = L^2/(l*L) := by
          rw [hL]
          simp only [dot, unit, hlen]
          rw [← hl]
          simp only [V3.cross]
          field_simp
          ring
        rw [this]; positivity
  | false =>
    have d12 : dot (unit t1) (unit (V3.cross t1 t2)) = 0 := by
      simp only [dot, unit, V3.cross]; ring
    refine ⟨V3.cross (unit (V3.cross t1 t2)) (unit t1), unit (V3.cross t1 t2), ?_, ?_⟩
    · rw [ofTangents]
      simp only [Bool.false_eq_true, if_false, norm_unit t1 h1, norm_unit _ h2]
      cases t1isZ with
      | true => exact frame_of3 _ _ _ (unit_dot _ h2) hu (by simp only [dot] at d12 ⊢; linarith) rfl
      | false => exact frame_of2 _ _ _ hu (unit_dot _ h2) d12 rfl
    · simp only [Bool.false_eq_true, if_false]
      constructor
      · simp only [dot, unit, V3.cross]; ring
      · have : dot t2 (V3.cross (unit (V3.cross t1 t2)) (unit t1)) = L^2/(l*L) := by
          rw [hL]
          simp only [dot, unit]
          rw [← hl, show (V3.cross t1 t2).length = L from rfl]
          simp only [V3.cross]
          field_simp
          ring
        rw [this]; positivity

example : ∃ t1 t2 : V3, (1/10^16 : ℝ) < t1.length ∧ (1/10^16 : ℝ) < (V3.cross t1 t2).length ∧ dot t1 t2 ≠ 0 := by
  refine ⟨⟨1, 2, 3⟩, ⟨1, 1, 0⟩, big_len _ (by simp only [dot]; norm_num), big_len _ (by simp only [dot, V3.cross]; norm_num), by simp only [dot]; norm_num⟩

end IFEM.Tens
