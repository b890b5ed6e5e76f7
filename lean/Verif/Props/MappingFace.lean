import Verif.Props.MappingHess
import Mathlib.Tactic.Positivity
import Mathlib.Tactic.FieldSimp
import Mathlib.Tactic.LinearCombination
/-!
# C61: tangents, normals and dilations on element boundaries
-/
namespace IFEM.Props
open IFEM IFEM.Spec IFEM.Lem IFEM.Mapping
open scoped Topology

variable {d s n : Nat}

/-- The gradients part of the boundary functions. -/
theorem gradients_ok {J D0 dNdu : Mat ℝ} {A : Matrix (Fin d) (Fin d) ℝ} {P : Matrix (Fin n) (Fin d) ℝ} (hd : 1 ≤ d ∧ d ≤ 3) (hJ : Rep J A) (hNu : Rep dNdu P) (hD0 : D0.WF)
    (hdet : epsZ < |A.det|) (h9 : A.det ≠ -999) :
    ∃ Ji D Ji', gradients J D0 dNdu true = some (A.det, Ji, D) ∧ Rep Ji Ji' ∧ A * Ji' = 1 ∧ Rep D (P * Ji') := by
  obtain ⟨i1, B, i2, i3, i4⟩ := inverse_small hJ hd epsZ (le_of_lt epsZ_pos) hdet h9
  obtain ⟨D, hD1, hD2⟩ := C60_multiply (C := D0) (A := dNdu) (B := (J.inverse epsZ).2) (tA := false) (tB := false) hNu i2 hD0 1
  rw [one_smul] at hD2
  have hne : A.det ≠ 0 := fun e => by rw [e, abs_zero] at hdet; exact absurd hdet (not_lt.mpr (le_of_lt epsZ_pos))
  refine ⟨(J.inverse epsZ).2, D, B, ?_, i2, i3, hD2⟩
  unfold gradients
  simp only [i1]
  rw [if_neg (by simp), if_neg hne, hD1]; rfl

theorem gradients_singular {J D0 dNdu : Mat ℝ} {A : Matrix (Fin d) (Fin d) ℝ} (hd : 1 ≤ d ∧ d ≤ 3) (hJ : Rep J A) (hdet : |A.det| ≤ epsZ) :
    gradients J D0 dNdu true = some (0, J, ⟨0, 0, []⟩) := by
  have hdd := det_small hJ hd
  have hinv := C60_inverse_singular J epsZ (by rw [hdd]; exact hdet) (by
    rw [hdd]
    intro e
    rw [e] at hdet
    have : epsZ < 999 := by unfold epsZ; norm_num
    rw [abs_neg, abs_of_pos (by norm_num)] at hdet
    exact absurd this (not_lt.mpr hdet))
  unfold gradients
  simp only [hinv]
  rw [if_neg (by simp), if_pos trivial]

/-- A `Vec3` holds the coordinates of a vector with at most three components, the missing ones being zero. -/
def IsVec (v : V3) (w : Pt s) : Prop := v = V3.ofList (List.ofFn w)

theorem length_vec (hs : 1 ≤ s ∧ s ≤ 3) {v : V3} {w : Pt s} (h : IsVec v w) : v.length = Real.sqrt (w ⬝ᵥ w) := by
  obtain ⟨h1, h3⟩ := hs
  rw [h]
  unfold V3.length V3.ofList dotProduct
  interval_cases s
  · simp
  · simp [List.ofFn_succ, Fin.sum_univ_two]
  · simp [List.ofFn_succ, Fin.sum_univ_three]

theorem normalize_vec (hs : 1 ≤ s ∧ s ≤ 3) {v : V3} {w : Pt s} (h : IsVec v w) (hl : 1 / 10 ^ 16 < Real.sqrt (w ⬝ᵥ w)) :
    ∃ t : Pt s, v.normalize = (V3.ofList (List.ofFn t), Real.sqrt (w ⬝ᵥ w)) ∧ ∀ i, w i = Real.sqrt (w ⬝ᵥ w) * t i := by
  have hlen := length_vec hs h
  have hp : 0 < Real.sqrt (w ⬝ᵥ w) := lt_trans (by positivity) hl
  refine ⟨fun i => w i / Real.sqrt (w ⬝ᵥ w), ?_, fun i => by field_simp⟩
  unfold V3.normalize
  dsimp only
  rw [hlen, if_neg (not_le.mpr hl)]
  congr 1
  rw [h]
  generalize Real.sqrt (w ⬝ᵥ w) = c
  obtain ⟨h1, h3⟩ := hs
  unfold V3.ofList
  interval_cases s <;> simp

/-- Along an edge the unit tangent and the length dilation are returned, and the derivatives of the basis functions with respect to the physical coordinates. -/
theorem C61_jacobian_edge {J0 D0 X dNdu : Mat ℝ} {X' : Matrix (Fin d) (Fin n) ℝ} {N : Fin n → Pt d → ℝ} {u : Pt d} (hd : 1 ≤ d ∧ d ≤ 3)
    (hX : Rep X X') (hN : ∀ a, DifferentiableAt ℝ (N a) u) (hNu : Rep dNdu (Matrix.of fun a k => pd (N a) k u)) (hJ0 : J0.WF) (hD0 : D0.WF)
    (hdet : epsZ < |(jac (geo X' N) u).det|) (h9 : (jac (geo X' N) u).det ≠ -999) (k : Fin d) (w : Pt d) (hw : ∀ i, w i = jac (geo X' N) u i k) (hl : 1 / 10 ^ 16 < Real.sqrt (w ⬝ᵥ w)) :
    ∃ t' Ji D Ji' D', ∃ t : Pt d, jacobianEdge J0 D0 X dNdu (k.1 + 1) = some (Real.sqrt (w ⬝ᵥ w), t', Ji, D) ∧ IsVec t' t ∧ t ⬝ᵥ t = 1 ∧
      (∀ i, w i = Real.sqrt (w ⬝ᵥ w) * t i) ∧ Rep Ji Ji' ∧ jac (geo X' N) u * Ji' = 1 ∧ Rep D D' ∧
      ∀ a F, DifferentiableAt ℝ F (geo X' N u) → Pulls (geo X' N) u (N a) F → ∀ j, D' a j = pd F j (geo X' N u) := by
  obtain ⟨J, hJ1, hJ2⟩ := C60_multiply (C := J0) (A := X) (B := dNdu) (tA := false) (tB := false) hX hNu hJ0 1
  rw [one_smul, ← jac_geo hN X'] at hJ2
  obtain ⟨Ji, D, B, g1, g2, g3, g4⟩ := gradients_ok hd hJ2 hNu hD0 hdet h9
  have hcol := C60_getColumn hJ2 k
  have hwc : (fun i => jac (geo X' N) u i k) = w := funext fun i => (hw i).symm
  rw [hwc] at hcol
  obtain ⟨t, t1, t2⟩ := normalize_vec hd (show IsVec (V3.ofList (List.ofFn w)) w from rfl) hl
  have hp : 0 < Real.sqrt (w ⬝ᵥ w) := lt_trans (by positivity) hl
  refine ⟨_, Ji, D, B, _, t, ?_, rfl, ?_, t2, g2, g3, g4, ?_⟩
  · unfold jacobianEdge
    rw [hJ1]
    simp only [Option.bind_eq_bind, Option.bind_some]
    rw [hcol]
    simp only [Option.bind_some]
    rw [g1]
    simp only [Option.bind_some, t1]; rfl
  · have e : w ⬝ᵥ w = Real.sqrt (w ⬝ᵥ w) ^ 2 * (t ⬝ᵥ t) := by
      conv_lhs => rw [show w = fun i => Real.sqrt (w ⬝ᵥ w) * t i from funext t2]
      generalize Real.sqrt (w ⬝ᵥ w) = c
      unfold dotProduct
      rw [Finset.mul_sum]
      exact Finset.sum_congr rfl fun i _ => by ring
    have hnn : 0 ≤ w ⬝ᵥ w := Finset.sum_nonneg fun i _ => mul_self_nonneg _
    rw [Real.sq_sqrt hnn] at e
    have hpos : w ⬝ᵥ w ≠ 0 := fun e0 => by rw [e0, Real.sqrt_zero] at hp; exact lt_irrefl _ hp
    have : (w ⬝ᵥ w) * (t ⬝ᵥ t - 1) = 0 := by linear_combination - e
    rcases mul_eq_zero.mp this with h | h
    · exact absurd h hpos
    · linear_combination h
  · intro a F hF hP j
    rw [Matrix.mul_apply]
    exact pulled_gradient_inv (geo_diff hN X') hF hP g3 j

/-- The scalar product of two `Vec3`. -/
def dot3 (a b : V3) : ℝ := a.x * b.x + a.y * b.y + a.z * b.z

theorem dot_vec (hs : 1 ≤ s ∧ s ≤ 3) {v v' : V3} {w w' : Pt s} (h : IsVec v w) (h' : IsVec v' w') : dot3 v v' = w ⬝ᵥ w' := by
  obtain ⟨h1, h3⟩ := hs
  rw [h, h']
  unfold dot3 V3.ofList dotProduct
  interval_cases s
  · simp
  · simp [List.ofFn_succ, Fin.sum_univ_two]
  · simp [List.ofFn_succ, Fin.sum_univ_three]

theorem normalize3 {v : V3} (hl : 1 / 10 ^ 16 < v.length) :
    ∃ p : V3, v.normalize = (p, v.length) ∧ dot3 p p = 1 ∧ v.x = v.length * p.x ∧ v.y = v.length * p.y ∧ v.z = v.length * p.z := by
  have hp : 0 < v.length := lt_trans (by positivity) hl
  have hsq : v.length * v.length = v.x * v.x + v.y * v.y + v.z * v.z :=
    Real.mul_self_sqrt (by nlinarith [mul_self_nonneg v.x, mul_self_nonneg v.y, mul_self_nonneg v.z])
  refine ⟨⟨v.x / v.length, v.y / v.length, v.z / v.length⟩, ?_, ?_, ?_, ?_, ?_⟩
  · unfold V3.normalize
    dsimp only
    rw [if_neg (not_le.mpr hl)]
  · unfold dot3
    dsimp only
    field_simp
    linear_combination - hsq
  all_goals (dsimp only; field_simp)

/-- The in-plane edge normal. -/
theorem normal_plane (c1 c2 : V3) (h2 : 1 / 10 ^ 16 < c2.length) (h3 : 1 / 10 ^ 16 < (V3.cross c1 c2).length) :
    (normal c1 c2 true).2 = c2.length ∧ dot3 (normal c1 c2 true).1 (normal c1 c2 true).1 = 1 ∧ dot3 (normal c1 c2 true).1 c2 = 0 ∧ 0 < dot3 (normal c1 c2 true).1 c1 ∧
      ∃ a b : ℝ, (normal c1 c2 true).1 = ⟨a * c1.x + b * c2.x, a * c1.y + b * c2.y, a * c1.z + b * c2.z⟩ := by
  obtain ⟨p, p1, p2, p3, p4, p5⟩ := normalize3 h2
  obtain ⟨q, q1, q2, q3, q4, q5⟩ := normalize3 h3
  have hl2 : 0 < c2.length := lt_trans (by positivity) h2
  have hl3 : 0 < (V3.cross c1 c2).length := lt_trans (by positivity) h3
  have hn : normal c1 c2 true = (V3.cross p q, c2.length) := by
    unfold normal
    rw [if_pos rfl]
    dsimp only
    rw [p1, q1]
  rw [hn]
  dsimp only
  generalize c2.length = L2 at *
  generalize (V3.cross c1 c2).length = L3 at *
  unfold V3.cross at q3 q4 q5
  dsimp only at q3 q4 q5
  unfold dot3 at p2 q2
  unfold dot3 V3.cross
  dsimp only
  have hpq : p.x * q.x + p.y * q.y + p.z * q.z = 0 := by
    have : L2 * L3 * (p.x * q.x + p.y * q.y + p.z * q.z) = 0 := by
      calc L2 * L3 * (p.x * q.x + p.y * q.y + p.z * q.z) = (L2 * p.x) * (L3 * q.x) + (L2 * p.y) * (L3 * q.y) + (L2 * p.z) * (L3 * q.z) := by ring
        _ = 0 := by rw [← p3, ← p4, ← p5, ← q3, ← q4, ← q5]; ring
    rcases mul_eq_zero.mp this with h | h
    · exact absurd h (mul_ne_zero (ne_of_gt hl2) (ne_of_gt hl3))
    · exact h
  refine ⟨rfl, ?_, ?_, ?_, ?_⟩
  · linear_combination (q.x * q.x + q.y * q.y + q.z * q.z) * p2 + q2 - (p.x * q.x + p.y * q.y + p.z * q.z) * hpq
  · rw [p3, p4, p5]; ring
  · have : L2 * ((p.y * q.z - p.z * q.y) * c1.x + (p.z * q.x - p.x * q.z) * c1.y + (p.x * q.y - p.y * q.x) * c1.z) = L3 := by
      calc L2 * ((p.y * q.z - p.z * q.y) * c1.x + (p.z * q.x - p.x * q.z) * c1.y + (p.x * q.y - p.y * q.x) * c1.z)
          = ((L2 * p.y) * q.z - (L2 * p.z) * q.y) * c1.x + ((L2 * p.z) * q.x - (L2 * p.x) * q.z) * c1.y + ((L2 * p.x) * q.y - (L2 * p.y) * q.x) * c1.z := by ring
        _ = (c1.y * c2.z - c1.z * c2.y) * q.x + (c1.z * c2.x - c1.x * c2.z) * q.y + (c1.x * c2.y - c1.y * c2.x) * q.z := by rw [← p3, ← p4, ← p5]; ring
        _ = L3 := by rw [q3, q4, q5]; linear_combination L3 * q2
    by_contra hneg
    rw [not_lt] at hneg
    have := mul_nonpos_of_nonneg_of_nonpos (le_of_lt hl2) hneg
    linarith
  · refine ⟨(c2.x * c2.x + c2.y * c2.y + c2.z * c2.z) / (L2 * L3), - (c1.x * c2.x + c1.y * c2.y + c1.z * c2.z) / (L2 * L3), ?_⟩
    have ex : ∀ a b : ℝ, a * L2 * L3 = b → a = b / (L2 * L3) := fun a b h => by rw [← h]; field_simp
    have key : ∀ a b x y : ℝ, a / (L2 * L3) * x + -b / (L2 * L3) * y = (a * x - b * y) / (L2 * L3) := fun a b x y => by ring
    rw [key, key, key]
    congr 1
    · apply ex
      calc (p.y * q.z - p.z * q.y) * L2 * L3 = (L2 * p.y) * (L3 * q.z) - (L2 * p.z) * (L3 * q.y) := by ring
        _ = _ := by rw [← p4, ← p5, ← q4, ← q5]; ring
    · apply ex
      calc (p.z * q.x - p.x * q.z) * L2 * L3 = (L2 * p.z) * (L3 * q.x) - (L2 * p.x) * (L3 * q.z) := by ring
        _ = _ := by rw [← p3, ← p5, ← q3, ← q5]; ring
    · apply ex
      calc (p.x * q.y - p.y * q.x) * L2 * L3 = (L2 * p.x) * (L3 * q.y) - (L2 * p.y) * (L3 * q.x) := by ring
        _ = _ := by rw [← p3, ← p4, ← q3, ← q4]; ring

theorem cross_length (a b : V3) : (V3.cross a b).length = Real.sqrt (dot3 a a * dot3 b b - dot3 a b ^ 2) := by
  unfold V3.length V3.cross dot3
  congr 1
  ring

/-- What the boundary function promises for the edge of a surface: a unit vector in the tangent plane, orthogonal to the edge tangent `w2` and pointing along `w1`. -/
structure EdgeNormal (m w1 w2 : Pt s) : Prop where
  unit : m ⬝ᵥ m = 1
  orth : m ⬝ᵥ w2 = 0
  out : 0 < m ⬝ᵥ w1
  plane : ∃ a b : ℝ, m = a • w1 + b • w2

theorem normal_edge (hs : s = 2 ∨ s = 3) (w1 w2 : Pt s) (h2 : 1 / 10 ^ 16 < Real.sqrt (w2 ⬝ᵥ w2)) (h3 : 1 / 10 ^ 16 < Real.sqrt (w1 ⬝ᵥ w1 * w2 ⬝ᵥ w2 - (w1 ⬝ᵥ w2) ^ 2)) :
    ∃ m : Pt s, normal (V3.ofList (List.ofFn w1)) (V3.ofList (List.ofFn w2)) true = (V3.ofList (List.ofFn m), Real.sqrt (w2 ⬝ᵥ w2)) ∧ EdgeNormal m w1 w2 := by
  have hs' : 1 ≤ s ∧ s ≤ 3 := by omega
  have v1 : IsVec (V3.ofList (List.ofFn w1)) w1 := rfl
  have v2 : IsVec (V3.ofList (List.ofFn w2)) w2 := rfl
  have l2 := length_vec hs' v2
  have l3 := cross_length (V3.ofList (List.ofFn w1)) (V3.ofList (List.ofFn w2))
  rw [dot_vec hs' v1 v1, dot_vec hs' v2 v2, dot_vec hs' v1 v2] at l3
  obtain ⟨k1, k2, k3, k4, a, b, k5⟩ := normal_plane _ _ (by rw [l2]; exact h2) (by rw [l3]; exact h3)
  have vm : IsVec (normal (V3.ofList (List.ofFn w1)) (V3.ofList (List.ofFn w2)) true).1 (a • w1 + b • w2) := by
    unfold IsVec
    rw [k5]
    unfold V3.ofList
    rcases hs with rfl | rfl <;> simp [List.ofFn_succ]
  refine ⟨a • w1 + b • w2, ?_, ?_, ?_, ?_, a, b, rfl⟩
  · rw [← l2, ← k1, ← show _ = V3.ofList (List.ofFn (a • w1 + b • w2)) from vm]
  · rw [← dot_vec hs' vm vm]; exact k2
  · rw [← dot_vec hs' vm v2]; exact k3
  · rw [← dot_vec hs' vm v1]; exact k4

/-- On the edge of a plane element: the length dilation, the unit normal, the inverse Jacobian and the derivatives. -/
theorem C61_jacobian_face2 {J0 D0 X dNdu : Mat ℝ} {X' : Matrix (Fin 2) (Fin n) ℝ} {N : Fin n → Pt 2 → ℝ} {u : Pt 2}
    (hX : Rep X X') (hN : ∀ a, DifferentiableAt ℝ (N a) u) (hNu : Rep dNdu (Matrix.of fun a k => pd (N a) k u)) (hJ0 : J0.WF) (hD0 : D0.WF)
    (hdet : epsZ < |(jac (geo X' N) u).det|) (h9 : (jac (geo X' N) u).det ≠ -999) (k1 k2 : Fin 2) (hk : k1 ≠ k2)
    (hl : 1 / 10 ^ 16 < Real.sqrt ((jac (geo X' N) u).col k2 ⬝ᵥ (jac (geo X' N) u).col k2)) :
    ∃ Ji D Ji' D', ∃ m : Pt 2, jacobianFace J0 D0 X dNdu (k1.1 + 1) (k2.1 + 1) =
        some (Real.sqrt ((jac (geo X' N) u).col k2 ⬝ᵥ (jac (geo X' N) u).col k2), V3.ofList (List.ofFn m), Ji, D) ∧
      EdgeNormal m ((jac (geo X' N) u).col k1) ((jac (geo X' N) u).col k2) ∧ Rep Ji Ji' ∧ jac (geo X' N) u * Ji' = 1 ∧ Rep D D' ∧
      ∀ a F, DifferentiableAt ℝ F (geo X' N u) → Pulls (geo X' N) u (N a) F → ∀ j, D' a j = pd F j (geo X' N u) := by
  obtain ⟨J, hJ1, hJ2⟩ := C60_multiply (C := J0) (A := X) (B := dNdu) (tA := false) (tB := false) hX hNu hJ0 1
  rw [one_smul, ← jac_geo hN X'] at hJ2
  obtain ⟨Ji, D, B, g1, g2, g3, g4⟩ := gradients_ok (by omega) hJ2 hNu hD0 hdet h9
  have hc1 := C60_getColumn hJ2 k1
  have hc2 := C60_getColumn hJ2 k2
  obtain ⟨m, m1, m2⟩ := normal_edge (Or.inl rfl) ((jac (geo X' N) u).col k1) ((jac (geo X' N) u).col k2) hl (by
    have : (jac (geo X' N) u).col k1 ⬝ᵥ (jac (geo X' N) u).col k1 * (jac (geo X' N) u).col k2 ⬝ᵥ (jac (geo X' N) u).col k2 - ((jac (geo X' N) u).col k1 ⬝ᵥ (jac (geo X' N) u).col k2) ^ 2 =
        (jac (geo X' N) u).det ^ 2 := by
      generalize jac (geo X' N) u = A at *
      rw [Matrix.det_fin_two]
      simp only [dotProduct, Fin.sum_univ_two, Matrix.col_apply]
      fin_cases k1 <;> fin_cases k2
      · exact absurd rfl hk
      · simp; ring
      · simp; ring
      · exact absurd rfl hk
    rw [this, Real.sqrt_sq_eq_abs]
    exact lt_trans (by unfold epsZ; norm_num) hdet)
  refine ⟨Ji, D, B, _, m, ?_, m2, g2, g3, g4, ?_⟩
  · unfold jacobianFace
    rw [hJ1]
    simp only [Option.bind_eq_bind, Option.bind_some]
    rw [hc1, hc2]
    simp only [Option.bind_some]
    have hne : (jac (geo X' N) u).det ≠ 0 := fun e => by rw [e, abs_zero] at hdet; exact absurd hdet (not_lt.mpr (le_of_lt epsZ_pos))
    rw [if_neg (by rw [hJ2.rows]; omega), g1, hJ2.cols]
    simp only [Option.map_some, decide_true]
    rw [if_neg hne]
    have : normal (V3.ofList (List.ofFn fun i => jac (geo X' N) u i k1)) (V3.ofList (List.ofFn fun i => jac (geo X' N) u i k2)) true = _ := m1
    rw [this]
  · intro a F hF hP j
    rw [Matrix.mul_apply]
    exact pulled_gradient_inv (geo_diff hN X') hF hP g3 j

/-- On the edge of a surface in space the derivatives stay those with respect to the parameters. -/
theorem C61_jacobian_face_shell {J0 D0 X dNdu : Mat ℝ} {X' : Matrix (Fin 3) (Fin n) ℝ} {N : Fin n → Pt 2 → ℝ} {u : Pt 2}
    (hX : Rep X X') (hN : ∀ a, DifferentiableAt ℝ (N a) u) (hNu : Rep dNdu (Matrix.of fun a k => pd (N a) k u)) (hJ0 : J0.WF)
    (k1 k2 : Fin 2) (hl : 1 / 10 ^ 16 < Real.sqrt ((jac (geo X' N) u).col k2 ⬝ᵥ (jac (geo X' N) u).col k2))
    (hl3 : 1 / 10 ^ 16 < Real.sqrt ((jac (geo X' N) u).col k1 ⬝ᵥ (jac (geo X' N) u).col k1 * (jac (geo X' N) u).col k2 ⬝ᵥ (jac (geo X' N) u).col k2 -
      ((jac (geo X' N) u).col k1 ⬝ᵥ (jac (geo X' N) u).col k2) ^ 2)) :
    ∃ J, ∃ m : Pt 3, Rep J (jac (geo X' N) u) ∧ jacobianFace J0 D0 X dNdu (k1.1 + 1) (k2.1 + 1) =
        some (Real.sqrt ((jac (geo X' N) u).col k2 ⬝ᵥ (jac (geo X' N) u).col k2), V3.ofList (List.ofFn m), J, dNdu) ∧
      EdgeNormal m ((jac (geo X' N) u).col k1) ((jac (geo X' N) u).col k2) := by
  obtain ⟨J, hJ1, hJ2⟩ := C60_multiply (C := J0) (A := X) (B := dNdu) (tA := false) (tB := false) hX hNu hJ0 1
  rw [one_smul, ← jac_geo hN X'] at hJ2
  have hc1 := C60_getColumn hJ2 k1
  have hc2 := C60_getColumn hJ2 k2
  obtain ⟨m, m1, m2⟩ := normal_edge (Or.inr rfl) ((jac (geo X' N) u).col k1) ((jac (geo X' N) u).col k2) hl hl3
  refine ⟨J, m, hJ2, ?_, m2⟩
  unfold jacobianFace
  rw [hJ1]
  simp only [Option.bind_eq_bind, Option.bind_some]
  rw [hc1, hc2]
  simp only [Option.bind_some]
  rw [if_pos ⟨hJ2.cols, by rw [hJ2.rows]; omega⟩, hJ2.cols]
  simp only [decide_true]
  have : normal (V3.ofList (List.ofFn fun i => jac (geo X' N) u i k1)) (V3.ofList (List.ofFn fun i => jac (geo X' N) u i k2)) true = _ := m1
  rw [this]

/-- On a face of a solid: the area dilation, the unit normal (orthogonal to both tangents, right-handed), the inverse Jacobian and the derivatives. -/
theorem C61_jacobian_face3 {J0 D0 X dNdu : Mat ℝ} {X' : Matrix (Fin 3) (Fin n) ℝ} {N : Fin n → Pt 3 → ℝ} {u : Pt 3}
    (hX : Rep X X') (hN : ∀ a, DifferentiableAt ℝ (N a) u) (hNu : Rep dNdu (Matrix.of fun a k => pd (N a) k u)) (hJ0 : J0.WF) (hD0 : D0.WF)
    (hdet : epsZ < |(jac (geo X' N) u).det|) (h9 : (jac (geo X' N) u).det ≠ -999) (k1 k2 : Fin 3) (w1 w2 : Pt 3)
    (hw1 : w1 = (jac (geo X' N) u).col k1) (hw2 : w2 = (jac (geo X' N) u).col k2) (hl : 1 / 10 ^ 16 < Real.sqrt (w1 ⬝ᵥ w1 * w2 ⬝ᵥ w2 - (w1 ⬝ᵥ w2) ^ 2)) :
    ∃ Ji D Ji' D', ∃ m : Pt 3, jacobianFace J0 D0 X dNdu (k1.1 + 1) (k2.1 + 1) =
        some (Real.sqrt (w1 ⬝ᵥ w1 * w2 ⬝ᵥ w2 - (w1 ⬝ᵥ w2) ^ 2), V3.ofList (List.ofFn m), Ji, D) ∧
      m ⬝ᵥ m = 1 ∧ m ⬝ᵥ w1 = 0 ∧ m ⬝ᵥ w2 = 0 ∧ 0 < (Matrix.of ![w1, w2, m]).det ∧ Rep Ji Ji' ∧ jac (geo X' N) u * Ji' = 1 ∧ Rep D D' ∧
      ∀ a F, DifferentiableAt ℝ F (geo X' N u) → Pulls (geo X' N) u (N a) F → ∀ j, D' a j = pd F j (geo X' N u) := by
  obtain ⟨J, hJ1, hJ2⟩ := C60_multiply (C := J0) (A := X) (B := dNdu) (tA := false) (tB := false) hX hNu hJ0 1
  rw [one_smul, ← jac_geo hN X'] at hJ2
  obtain ⟨Ji, D, B, g1, g2, g3, g4⟩ := gradients_ok (by omega) hJ2 hNu hD0 hdet h9
  have hc1 := C60_getColumn hJ2 k1
  have hc2 := C60_getColumn hJ2 k2
  rw [show (fun i => jac (geo X' N) u i k1) = w1 from hw1.symm] at hc1
  rw [show (fun i => jac (geo X' N) u i k2) = w2 from hw2.symm] at hc2
  have v1 : IsVec (V3.ofList (List.ofFn w1)) w1 := rfl
  have v2 : IsVec (V3.ofList (List.ofFn w2)) w2 := rfl
  have hs3 : 1 ≤ 3 ∧ 3 ≤ 3 := by omega
  have l3 := cross_length (V3.ofList (List.ofFn w1)) (V3.ofList (List.ofFn w2))
  rw [dot_vec hs3 v1 v1, dot_vec hs3 v2 v2, dot_vec hs3 v1 v2] at l3
  obtain ⟨q, q1, q2, q3, q4, q5⟩ := normalize3 (v := V3.cross (V3.ofList (List.ofFn w1)) (V3.ofList (List.ofFn w2))) (by rw [l3]; exact hl)
  rw [l3] at q1 q3 q4 q5
  have hp : 0 < Real.sqrt (w1 ⬝ᵥ w1 * w2 ⬝ᵥ w2 - (w1 ⬝ᵥ w2) ^ 2) := lt_trans (by positivity) hl
  have vq : IsVec q ![q.x, q.y, q.z] := by unfold IsVec V3.ofList; simp [List.ofFn_succ]
  refine ⟨Ji, D, B, _, ![q.x, q.y, q.z], ?_, ?_, ?_, ?_, ?_, g2, g3, g4, ?_⟩
  · unfold jacobianFace
    rw [hJ1]
    simp only [Option.bind_eq_bind, Option.bind_some]
    rw [hc1, hc2]
    simp only [Option.bind_some]
    have hne : (jac (geo X' N) u).det ≠ 0 := fun e => by rw [e, abs_zero] at hdet; exact absurd hdet (not_lt.mpr (le_of_lt epsZ_pos))
    rw [if_neg (by rw [hJ2.cols]; omega), g1, hJ2.cols]
    simp only [Option.map_some]
    rw [if_neg hne]
    have : normal (V3.ofList (List.ofFn w1)) (V3.ofList (List.ofFn w2)) (decide (3 = 2)) = (q, Real.sqrt (w1 ⬝ᵥ w1 * w2 ⬝ᵥ w2 - (w1 ⬝ᵥ w2) ^ 2)) := by
      unfold normal
      rw [if_neg (by decide)]
      exact q1
    rw [this, ← vq]
  · rw [← dot_vec hs3 vq vq]; exact q2
  all_goals try generalize Real.sqrt (w1 ⬝ᵥ w1 * w2 ⬝ᵥ w2 - (w1 ⬝ᵥ w2) ^ 2) = L at *
  all_goals simp [V3.cross, V3.ofList, List.ofFn_succ] at q3 q4 q5
  · have : L * (![q.x, q.y, q.z] ⬝ᵥ w1) = 0 := by
      have e : ![q.x, q.y, q.z] ⬝ᵥ w1 = q.x * w1 0 + q.y * w1 1 + q.z * w1 2 := by simp [dotProduct, Fin.sum_univ_three]
      rw [e]
      calc L * (q.x * w1 0 + q.y * w1 1 + q.z * w1 2) = (L * q.x) * w1 0 + (L * q.y) * w1 1 + (L * q.z) * w1 2 := by ring
        _ = 0 := by rw [← q3, ← q4, ← q5]; ring
    exact (mul_eq_zero.mp this).resolve_left (ne_of_gt hp)
  · have : L * (![q.x, q.y, q.z] ⬝ᵥ w2) = 0 := by
      have e : ![q.x, q.y, q.z] ⬝ᵥ w2 = q.x * w2 0 + q.y * w2 1 + q.z * w2 2 := by simp [dotProduct, Fin.sum_univ_three]
      rw [e]
      calc L * (q.x * w2 0 + q.y * w2 1 + q.z * w2 2) = (L * q.x) * w2 0 + (L * q.y) * w2 1 + (L * q.z) * w2 2 := by ring
        _ = 0 := by rw [← q3, ← q4, ← q5]; ring
    exact (mul_eq_zero.mp this).resolve_left (ne_of_gt hp)
  · rw [Matrix.det_fin_three]
    simp
    unfold dot3 at q2
    have : w1 0 * w2 1 * q.z - w1 0 * w2 2 * q.y - w1 1 * w2 0 * q.z + w1 1 * w2 2 * q.x + w1 2 * w2 0 * q.y - w1 2 * w2 1 * q.x = L := by
      calc _ = (w1 1 * w2 2 - w1 2 * w2 1) * q.x + (w1 2 * w2 0 - w1 0 * w2 2) * q.y + (w1 0 * w2 1 - w1 1 * w2 0) * q.z := by ring
        _ = L := by rw [q3, q4, q5]; linear_combination L * q2
    linarith
  · intro a F hF hP j
    rw [Matrix.mul_apply]
    exact pulled_gradient_inv (geo_diff hN X') hF hP g3 j

/-- At a singular boundary point of a plane or solid element the dilation is zero and there are no derivatives. -/
theorem C61_jacobian_face_singular {J0 D0 X dNdu : Mat ℝ} {X' : Matrix (Fin d) (Fin n) ℝ} {N : Fin n → Pt d → ℝ} {u : Pt d} (hd : d = 2 ∨ d = 3)
    (hX : Rep X X') (hN : ∀ a, DifferentiableAt ℝ (N a) u) (hNu : Rep dNdu (Matrix.of fun a k => pd (N a) k u)) (hJ0 : J0.WF)
    (hdet : |(jac (geo X' N) u).det| ≤ epsZ) (k1 k2 : Fin d) : ∃ m J, jacobianFace J0 D0 X dNdu (k1.1 + 1) (k2.1 + 1) = some (0, m, J, ⟨0, 0, []⟩) := by
  obtain ⟨J, hJ1, hJ2⟩ := C60_multiply (C := J0) (A := X) (B := dNdu) (tA := false) (tB := false) hX hNu hJ0 1
  rw [one_smul, ← jac_geo hN X'] at hJ2
  have hc1 := C60_getColumn hJ2 k1
  have hc2 := C60_getColumn hJ2 k2
  unfold jacobianFace
  rw [hJ1]
  simp only [Option.bind_eq_bind, Option.bind_some]
  rw [hc1, hc2]
  simp only [Option.bind_some]
  rw [if_neg (by rw [hJ2.cols, hJ2.rows]; omega), gradients_singular (by omega) hJ2 hdet]
  simp only [Option.map_some, if_true]
  exact ⟨_, _, rfl⟩

end IFEM.Props
