import Verif.Props.Immersed
import Mathlib.Algebra.Order.Ring.Abs
import Mathlib.Analysis.Real.Sqrt

/-!
# C80: holes, and the set-up of a patch with an immersed geometry
-/
namespace IFEM.Immersed
open IFEM.Immersed.Spec
variable {K : Type} [Field K] [LinearOrder K] [IsStrictOrderedRing K]

/-- The square root. -/
def IsSqrt (sqrt : K → K) : Prop := ∀ x, 0 ≤ x → 0 ≤ sqrt x ∧ sqrt x*sqrt x = x

theorem oval_in {a b p q R L : K} (hR : 0 ≤ R) (hL : 0 ≤ L) (hLL : L*L = a*a + b*b) (h1 : ¬ p*p + q*q ≤ R*R) (h2 : ¬ (p-a)*(p-a) + (q-b)*(q-b) ≤ R*R) :
    (¬ (a*(b-q) - (a-p)*b > L*R ∨ a*(b-q) - (a-p)*b < -(L*R)) ∧ p*p + q*q ≤ L*L + R*R ∧ (p-a)*(p-a) + (q-b)*(q-b) ≤ L*L + R*R) ↔
    ∃ s : K, 0 ≤ s ∧ s ≤ 1 ∧ (p-s*a)^2 + (q-s*b)^2 ≤ R^2 := by
  push Not at h1 h2
  constructor
  · rintro ⟨hd, h3, h4⟩
    push Not at hd
    obtain ⟨hd1, hd2⟩ := hd
    have hL2 : 0 < a*a + b*b := by
      rw [← hLL]
      rcases eq_or_lt_of_le hL with h | h
      · rw [← h] at h3; linarith
      · positivity
    refine ⟨(a*p + b*q)/(a*a+b*b), ?_, ?_, ?_⟩
    · rw [le_div_iff₀ hL2, zero_mul]
      by_contra hc
      push Not at hc
      nlinarith
    · rw [div_le_one hL2]
      by_contra hc
      push Not at hc
      nlinarith
    · have e : (p-(a*p + b*q)/(a*a+b*b)*a)^2 + (q-(a*p + b*q)/(a*a+b*b)*b)^2 = (b*p - a*q)^2/(a*a+b*b) := by
        have hne : a*a + b*b ≠ 0 := hL2.ne'
        generalize hg : a*a + b*b = g at *
        rw [eq_div_iff hne]
        have h5 : (p-(a*p + b*q)/g*a)^2 + (q-(a*p + b*q)/g*b)^2 = (p*p+q*q) - 2*(a*p+b*q)*((a*p + b*q)/g) + ((a*p + b*q)/g)^2*g := by rw [← hg]; ring
        rw [h5]
        field_simp
        rw [← hg]
        ring
      rw [e, div_le_iff₀ hL2, ← hLL]
      have e2 : a*(b-q) - (a-p)*b = b*p - a*q := by ring
      rw [e2] at hd1 hd2
      have := sq_le_sq' hd2 hd1
      calc (b*p - a*q)^2 ≤ (L*R)^2 := this
        _ = R^2*(L*L) := by ring
  · rintro ⟨s, s0, s1, hs⟩
    have hcs : (b*p - a*q)^2 ≤ (L*R)^2 := by
      have e : (b*p - a*q)^2 + (a*(p-s*a) + b*(q-s*b))^2 = (a*a+b*b)*((p-s*a)^2 + (q-s*b)^2) := by ring
      have h5 : (a*a+b*b)*((p-s*a)^2 + (q-s*b)^2) ≤ (a*a+b*b)*R^2 := mul_le_mul_of_nonneg_left hs (add_nonneg (mul_self_nonneg _) (mul_self_nonneg _))
      have h6 : (L*R)^2 = (a*a+b*b)*R^2 := by rw [← hLL]; ring
      rw [h6]
      nlinarith [sq_nonneg (a*(p-s*a) + b*(q-s*b))]
    have hab := abs_le_of_sq_le_sq' hcs (by positivity)
    have e2 : a*(b-q) - (a-p)*b = b*p - a*q := by ring
    rw [e2]
    refine ⟨by push Not; exact ⟨hab.2, hab.1⟩, ?_, ?_⟩
    · have e1 : (p-a)*(p-a) + (q-b)*(q-b) = ((p-s*a)^2 + (q-s*b)^2) - 2*(1-s)*((p-s*a)*a + (q-s*b)*b) + (1-s)^2*(a*a+b*b) := by ring
      have e3 : p*p + q*q = ((p-s*a)^2 + (q-s*b)^2) + 2*s*((p-s*a)*a + (q-s*b)*b) + s^2*(a*a+b*b) := by ring
      have h7 : 0 < (1-s)*((1-s)*(a*a+b*b) - 2*((p-s*a)*a + (q-s*b)*b)) := by nlinarith
      have h8 : 0 < 1-s := by
        rcases eq_or_lt_of_le s1 with h | h
        · rw [h] at h7; simp at h7
        · linarith
      have h9 : 0 < (1-s)*(a*a+b*b) - 2*((p-s*a)*a + (q-s*b)*b) := (pos_iff_pos_of_mul_pos h7).1 h8
      have h10 : 0 ≤ a*a+b*b := add_nonneg (mul_self_nonneg _) (mul_self_nonneg _)
      rw [e3, hLL]
      nlinarith
    · have e1 : (p-a)*(p-a) + (q-b)*(q-b) = ((p-s*a)^2 + (q-s*b)^2) - 2*(1-s)*((p-s*a)*a + (q-s*b)*b) + (1-s)^2*(a*a+b*b) := by ring
      have e3 : p*p + q*q = ((p-s*a)^2 + (q-s*b)^2) + 2*s*((p-s*a)*a + (q-s*b)*b) + s^2*(a*a+b*b) := by ring
      have h7 : 0 < s*(s*(a*a+b*b) + 2*((p-s*a)*a + (q-s*b)*b)) := by nlinarith
      have h8 : 0 < s := by
        rcases eq_or_lt_of_le s0 with h | h
        · rw [← h] at h7; simp at h7
        · exact h
      have h9 : 0 < s*(a*a+b*b) + 2*((p-s*a)*a + (q-s*b)*b) := (pos_iff_pos_of_mul_pos h7).1 h8
      have h10 : 0 ≤ a*a+b*b := add_nonneg (mul_self_nonneg _) (mul_self_nonneg _)
      rw [e1, hLL]
      nlinarith

/-- **C80, one hole**: the test gives 0 in the closed hole, and 1 outside. -/
theorem C80_hole {sqrt : K → K} (hs : IsSqrt sqrt) (h : Hole K) (hR : 0 ≤ radius h) (x y : K) :
    (h.alpha sqrt x y = 0 ↔ InHole x y h) ∧ (h.alpha sqrt x y = 1 ↔ ¬ InHole x y h) := by
  have key : (h.alpha sqrt x y = 0 ∧ InHole x y h) ∨ (h.alpha sqrt x y = 1 ∧ ¬ InHole x y h) := by
    cases h with
    | circle R xc yc =>
      simp only [Hole.alpha, alphaCircle, InHole, dist2]
      by_cases h : (x-xc)*(x-xc) + (y-yc)*(y-yc) > R*R
      · rw [if_pos h]
        exact .inr ⟨rfl, by nlinarith⟩
      · rw [if_neg h]
        exact .inl ⟨rfl, by nlinarith⟩
    | oval R x0 y0 x1 y1 =>
      obtain ⟨hL, hLL⟩ := hs ((x1-x0)*(x1-x0) + (y1-y0)*(y1-y0)) (add_nonneg (mul_self_nonneg _) (mul_self_nonneg _))
      simp only [Hole.alpha, alphaOval, InHole, dist2]
      simp only [radius] at hR
      generalize sqrt ((x1-x0)*(x1-x0) + (y1-y0)*(y1-y0)) = L at *
      by_cases h1 : (x-x0)*(x-x0) + (y-y0)*(y-y0) ≤ R*R
      · rw [if_pos h1]
        exact .inl ⟨rfl, 0, le_refl _, zero_le_one, by nlinarith⟩
      · rw [if_neg h1]
        by_cases h2 : (x-x1)*(x-x1) + (y-y1)*(y-y1) ≤ R*R
        · rw [if_pos h2]
          exact .inl ⟨rfl, 1, zero_le_one, le_refl _, by nlinarith⟩
        · rw [if_neg h2]
          have := oval_in (a := x1-x0) (b := y1-y0) (p := x-x0) (q := y-y0) hR hL hLL h1 (by
            rw [show x-x0-(x1-x0) = x-x1 by ring, show y-y0-(y1-y0) = y-y1 by ring]; exact h2)
          rw [show x-x0-(x1-x0) = x-x1 by ring, show y-y0-(y1-y0) = y-y1 by ring, show y1-y0-(y-y0) = y1-y by ring, show x1-x0-(x-x0) = x1-x by ring] at this
          have e : (∃ s : K, 0 ≤ s ∧ s ≤ 1 ∧ (x-((1-s)*x0+s*x1))^2 + (y-((1-s)*y0+s*y1))^2 ≤ R^2) ↔ ∃ s : K, 0 ≤ s ∧ s ≤ 1 ∧ (x-x0-s*(x1-x0))^2 + (y-y0-s*(y1-y0))^2 ≤ R^2 := by
            refine exists_congr fun s => ?_
            rw [show x-((1-s)*x0+s*x1) = x-x0-s*(x1-x0) by ring, show y-((1-s)*y0+s*y1) = y-y0-s*(y1-y0) by ring]
          rw [e, ← this]
          by_cases h3 : (x1-x0)*(y1-y) - (x1-x)*(y1-y0) > L*R ∨ (x1-x0)*(y1-y) - (x1-x)*(y1-y0) < -(L*R)
          · rw [if_pos h3]
            exact .inr ⟨rfl, fun hc => hc.1 h3⟩
          · rw [if_neg h3]
            by_cases h4 : (x-x0)*(x-x0) + (y-y0)*(y-y0) ≤ L*L + R*R ∧ (x-x1)*(x-x1) + (y-y1)*(y-y1) ≤ L*L + R*R
            · rw [if_pos h4]
              exact .inl ⟨rfl, h3, h4⟩
            · rw [if_neg h4]
              exact .inr ⟨rfl, fun hc => h4 hc.2⟩
  rcases key with ⟨h1, h2⟩ | ⟨h1, h2⟩
  · exact ⟨by simp [h1, h2], by rw [h1]; simp [h2]⟩
  · exact ⟨by rw [h1]; simp [h2], by simp [h1, h2]⟩

theorem plate_eq {sqrt : K → K} (hs : IsSqrt sqrt) (x y : K) (hl : List (Hole K)) (hR : ∀ h ∈ hl, 0 ≤ radius h) :
    (alphaPlate sqrt x y hl 1 = 0 ∨ alphaPlate sqrt x y hl 1 = 1) ∧ (alphaPlate sqrt x y hl 1 > 0 ↔ ∀ h ∈ hl, ¬ InHole x y h) := by
  have zero : ∀ l : List (Hole K), alphaPlate sqrt x y l 0 = 0 := by
    intro l; cases l <;> simp [alphaPlate]
  induction hl with
  | nil => simp [alphaPlate]
  | cons h t ih =>
    have hh := C80_hole hs h (hR h (by simp)) x y
    have it := ih fun k hk => hR k (by simp [hk])
    rw [alphaPlate, if_pos zero_lt_one]
    by_cases hin : InHole x y h
    · rw [hh.1.2 hin, zero]
      refine ⟨.inl rfl, by simp [hin]⟩
    · rw [hh.2.2 hin]
      refine ⟨it.1, ?_⟩
      rw [it.2]
      simp [hin]

/-- **C80, the holes of a patch**: after any sequence of added holes a point is inside the geometry exactly if it is in none of the holes. -/
theorem C80_holes {sqrt : K → K} (hs : IsSqrt sqrt) (hl : List (Hole K)) (hne : hl ≠ []) (hR : ∀ h ∈ hl, 0 ≤ radius h) (p : Pt K) :
    ((hl.foldl (fun g h => addHole h g) Geometry.none).alpha sqrt p > 0 ↔ ∀ h ∈ hl, ¬ InHole (p 0) (p 1) h) ∧
    ((hl.foldl (fun g h => addHole h g) Geometry.none).alpha sqrt p = 0 ∨ (hl.foldl (fun g h => addHole h g) Geometry.none).alpha sqrt p = 1) := by
  have plate : ∀ (l m : List (Hole K)), l.foldl (fun g h => addHole h g) (Geometry.plate m) = Geometry.plate (m ++ l) := by
    intro l
    induction l with
    | nil => intro m; simp
    | cons a t ih => intro m; rw [List.foldl_cons, addHole, ih]; simp
  match hl, hne with
  | [h], _ =>
    have hh := C80_hole hs h (hR h (by simp)) (p 0) (p 1)
    simp only [List.foldl_cons, List.foldl_nil, addHole, Geometry.alpha]
    by_cases hin : InHole (p 0) (p 1) h
    · rw [hh.1.2 hin]; simp [hin]
    · rw [hh.2.2 hin]; simp [hin]
  | h :: h' :: t, _ =>
    have hp := plate_eq hs (p 0) (p 1) (h :: h' :: t) hR
    have e : (h :: h' :: t).foldl (fun g h => addHole h g) Geometry.none = Geometry.plate (h :: h' :: t) := by
      rw [List.foldl_cons, List.foldl_cons, addHole, addHole, plate]
      simp
    rw [e]
    exact ⟨hp.2, hp.1⟩

omit [LinearOrder K] [IsStrictOrderedRing K] [Field K] in
/-- **C80, functions**: a geometry function is refused if there are holes already; holes added after it have no effect. -/
theorem C80_function (f : Pt K → K) (t : K) (h : Hole K) (g : Geometry K) :
    ((setGeometry f t g).2 = true ↔ g = Geometry.none) ∧ ((setGeometry f t g).2 = false → (setGeometry f t g).1 = g) ∧ addHole h (setGeometry f t Geometry.none).1 = Geometry.func f t := by
  cases g <;> simp [setGeometry, addHole]

/-! ## Test points -/

/-- **C80, rectangles**: in an element with its sides along the axes, a cell is cut if the test differs between the four points at 99.8 % of the way from its centre to its corners. -/
theorem C80_aligned (E : Elm K) (a b p q : K) (h1 : E.hypot a 0 = a) (h2 : E.hypot 0 b = b)
    (e2 : E.X2 = E.X1 + ![a, 0, 0, p, 0]) (e3 : E.X3 = E.X1 + ![a, b, 0, p, q]) (e4 : E.X4 = E.X1 + ![0, b, 0, 0, q]) (d : Nat) (ξ η sx sy : K) :
    near E d ξ η sx sy = E.alpha (image E (ξ + sx*(998/1000*half K d)) (η + sy*(998/1000*half K d))) := by
  unfold near
  congr 1
  funext k
  have l1 : lenX E = a := by
    have : E.hypot (E.X2 0 - E.X1 0) (E.X2 1 - E.X1 1) = a ∧ E.hypot (E.X3 0 - E.X4 0) (E.X3 1 - E.X4 1) = a := by
      constructor
      · rw [show E.X2 0 - E.X1 0 = a by rw [e2]; simp, show E.X2 1 - E.X1 1 = 0 by rw [e2]; simp, h1]
      · rw [show E.X3 0 - E.X4 0 = a by rw [e3, e4]; simp, show E.X3 1 - E.X4 1 = 0 by rw [e3, e4]; simp, h1]
    unfold lenX; rw [this.1, this.2]; ring
  have l2 : lenY E = b := by
    have : E.hypot (E.X4 0 - E.X1 0) (E.X4 1 - E.X1 1) = b ∧ E.hypot (E.X3 0 - E.X2 0) (E.X3 1 - E.X2 1) = b := by
      constructor
      · rw [show E.X4 0 - E.X1 0 = 0 by rw [e4]; simp, show E.X4 1 - E.X1 1 = b by rw [e4]; simp, h2]
      · rw [show E.X3 0 - E.X2 0 = 0 by rw [e3, e2]; simp, show E.X3 1 - E.X2 1 = b by rw [e3, e2]; simp, h2]
    unfold lenY; rw [this.1, this.2]; ring
  simp only [Pi.add_apply, image, inset, l1, l2, e2, e3, e4]
  fin_cases k <;> simp <;> ring

/-- **Counterexample.**  A hole that touches no corner of an element and contains no Gauss point of it is not seen, whatever the depth: an element `[-1,1]²`, two points per direction. -/
theorem C80_hole_missed (R c : K) (hR : 0 ≤ R) (hc : R*R < 2*(c*c)) (hR1 : R ≤ 1) (m : Int) (sqrt : K → K) (hypot : K → K → K) (hh : hypot 2 0 = 2 ∧ hypot 0 2 = 2) :
    quadrature { alpha := (Geometry.hole (.circle R 0 0)).alpha sqrt, hypot := hypot, X1 := ![-1, -1, 0, 0, 0], X2 := ![1, -1, 0, 1, 0], X3 := ![1, 1, 0, 1, 1], X4 := ![-1, 1, 0, 0, 1] }
      (some [(-c, 1), (c, 1)]) m = some [(-c, -c, 1), (c, -c, 1), (-c, c, 1), (c, c, 1)] := by
  generalize hE : (Elm.mk ((Geometry.hole (.circle R 0 0)).alpha sqrt) hypot ![-1, -1, 0, 0, 0] ![1, -1, 0, 1, 0] ![1, 1, 0, 1, 1] ![-1, 1, 0, 0, 1] : Elm K) = E
  have im : ∀ ξ η : K, image E ξ η 0 = ξ ∧ image E ξ η 1 = η := by
    intro ξ η
    subst hE
    constructor <;> simp [image] <;> ring
  have al : ∀ ξ η : K, R*R < ξ*ξ + η*η → E.alpha (image E ξ η) = 1 := by
    intro ξ η h
    have e := im ξ η
    have ea : E.alpha (image E ξ η) = (Geometry.hole (.circle R 0 0)).alpha sqrt (image E ξ η) := by subst hE; rfl
    rw [ea]
    simp only [Geometry.alpha, Hole.alpha, alphaCircle, e.1, e.2, sub_zero]
    rw [if_pos h]
  have ne : ∀ sx sy : K, sx*sx = 1 → sy*sy = 1 → near E 0 0 0 sx sy = 1 := by
    intro sx sy h1 h2
    rw [C80_aligned E 2 2 1 1 (by subst hE; exact hh.1) (by subst hE; exact hh.2) (by subst hE; funext k; fin_cases k <;> simp <;> ring) (by subst hE; funext k; fin_cases k <;> simp <;> ring)
      (by subst hE; funext k; fin_cases k <;> simp <;> ring)]
    apply al
    have h0 : half K 0 = 1 := by simp [half]
    rw [h0]
    have : (0 + sx*(998/1000*1))*(0 + sx*(998/1000*1)) + (0 + sy*(998/1000*1))*(0 + sy*(998/1000*1)) = 2*(998/1000)^2 := by
      linear_combination (998/1000)^2*h1 + (998/1000)^2*h2
    rw [this]
    have : R*R ≤ 1 := by nlinarith
    have h3 : (1 : K) < 2*(998/1000)^2 := by norm_num
    linarith
  have hu : uniform E 1 (cell0 E) = true := by
    refine (uniform_iff (good0 E)).2 ?_
    unfold Cut
    rw [not_not]
    simp only [cell0]
    rw [ne (-1) (-1) (by ring) (by ring), ne 1 (-1) (by ring) (by ring), ne 1 1 (by ring) (by ring), ne (-1) 1 (by ring) (by ring)]
    exact ⟨rfl, rfl, rfl⟩
  have hcells : ∀ n : Nat, (List.range' 1 n).foldl (level E) [cell0 E] = [cell0 E] := by
    intro n
    have hp := levels_below E n
    have hb : below E n (cell0 E) = [cell0 E] := by
      cases n with
      | zero => rfl
      | succ n =>
        rw [below, if_pos]
        exact hu
    rw [hb] at hp
    exact List.perm_singleton.1 hp
  unfold quadrature cells
  rw [hcells]
  simp only [Option.map_some, List.flatMap_cons, List.flatMap_nil, List.append_nil, Option.some.injEq]
  rw [cellPoints_eq (good0 E)]
  have h0 : half K 0 = 1 := by simp [half]
  simp only [scaled, cell0, h0, List.flatMap_cons, List.flatMap_nil, List.append_nil, List.map_cons, List.map_nil, List.cons_append, List.nil_append]
  rw [List.filter_eq_self.2]
  · simp
  · intro g hg
    simp only [List.mem_cons, List.not_mem_nil, or_false] at hg
    rw [decide_eq_true_eq]
    rcases hg with rfl | rfl | rfl | rfl <;>
    · simp only
      rw [al _ _ (by ring_nf; linarith)]
      exact zero_lt_one

end IFEM.Immersed
