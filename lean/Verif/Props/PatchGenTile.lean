import Verif.Props.PatchGen
import Mathlib.Tactic.Positivity

/-! # C79: the patches fill the box, and facing sides agree for any printing of the numbers -/
namespace IFEM.PatchGen
open IFEM.PatchGen.Spec
variable {K : Type} [Field K] [LinearOrder K] [IsStrictOrderedRing K]

theorem cover1 {x0 h : K} (hh : 0 < h) : ∀ {n : Nat}, 1 ≤ n → ∀ {x : K}, x0 ≤ x → x ≤ x0 + n*h → ∃ i < n, ∃ u : K, 0 ≤ u ∧ u ≤ 1 ∧ x = x0 + ((i : Nat) + u)*h
  | n+1, _, x, h1, h2 => by
    by_cases hc : 1 ≤ n ∧ x ≤ x0 + n*h
    · obtain ⟨i, hi, u, hu⟩ := cover1 hh hc.1 h1 hc.2
      exact ⟨i, by omega, u, hu⟩
    · refine ⟨n, by omega, (x - x0 - n*h)/h, ?_, ?_, ?_⟩
      · refine div_nonneg ?_ hh.le
        by_cases hn : 1 ≤ n
        · have : x0 + n*h < x := not_le.1 fun h => hc ⟨hn, h⟩
          linarith
        · have : n = 0 := by omega
          subst this
          simp only [Nat.cast_zero, zero_mul, sub_zero]
          linarith
      · rw [div_le_one hh]
        push_cast at h2
        linarith
      · field_simp
        ring

theorem apart1 {x0 h : K} (hh : 0 < h) {i i' : Nat} {u u' : K} (h0 : 0 < u) (h1 : u < 1) (h0' : 0 < u') (h1' : u' < 1)
    (e : x0 + ((i : K) + u)*h = x0 + ((i' : K) + u')*h) : i = i' := by
  have e := mul_right_cancel₀ hh.ne' (add_left_cancel e)
  rcases lt_trichotomy i i' with hl | hl | hl
  · have : ((i+1 : Nat) : K) ≤ (i' : K) := by exact_mod_cast hl
    push_cast at this
    linarith
  · exact hl
  · have : ((i'+1 : Nat) : K) ≤ (i : K) := by exact_mod_cast hl
    push_cast at this
    linarith

theorem within1 {x0 L : K} {n i : Nat} {u : K} (hL : 0 < L) (hi : i < n) (h0 : 0 ≤ u) (h1 : u ≤ 1) : x0 ≤ x0 + ((i : K) + u)*(L/n) ∧ x0 + ((i : K) + u)*(L/n) ≤ x0 + L := by
  have hn : (0 : K) < n := by exact_mod_cast (by omega : 0 < n)
  have hh : 0 < L/n := div_pos hL hn
  have hb : ((i+1 : Nat) : K) ≤ n := by exact_mod_cast hi
  push_cast at hb
  have hi0 : (0 : K) ≤ i := Nat.cast_nonneg i
  constructor
  · have := mul_nonneg (add_nonneg hi0 h0) hh.le
    linarith
  · have e : (n : K)*(L/n) = L := by field_simp
    have := mul_le_mul_of_nonneg_right (by linarith : (i : K) + u ≤ n) hh.le
    linarith

theorem span1 {L : K} {n : Nat} (hn : 1 ≤ n) : (n : K)*(L/n) = L := by
  have : (n : K) ≠ 0 := by exact_mod_cast (by omega : n ≠ 0)
  field_simp

/-- The patches of a volume model fill the box. -/
theorem C79_fills_volume {g : Gen K} (hx : 1 ≤ g.nx) (hy : 1 ≤ g.ny) (hz : 1 ≤ g.nz) (hLx : 0 < g.Lx*g.scale) (hLy : 0 < g.Ly*g.scale) (hLz : 0 < g.Lz*g.scale) :
    (g2_3D id g).length = g.nx*g.ny*g.nz ∧ Fills g 3 (g2_3D id g) := by
  have px : 0 < g.Lx*g.scale/g.nx := div_pos hLx (by exact_mod_cast hx)
  have py : 0 < g.Ly*g.scale/g.ny := div_pos hLy (by exact_mod_cast hy)
  have pz : 0 < g.Lz*g.scale/g.nz := div_pos hLz (by exact_mod_cast hz)
  refine ⟨len_3D id g hx hy hz, ?_, ?_, ?_⟩
  · rintro P hP q ⟨a1, a2, a3, a4, a5, a6⟩
    obtain ⟨p, hp⟩ := List.mem_iff_getElem?.1 hP
    obtain ⟨i, j, k, hi, hj, hk, -, rfl⟩ := place_3D hx hy hz (by omega : 1 ≤ p+1) hp
    rw [point_3D]
    exact ⟨within1 hLx hi a1 a2, within1 hLy hj a3 a4, within1 hLz hk a5 a6⟩
  · rintro ⟨x, y, z⟩ ⟨⟨a1, a2⟩, h2, h3⟩
    simp only [Nat.le_refl, if_true, show 2 ≤ 3 by omega] at h2 h3
    obtain ⟨i, hi, u, u0, u1, rfl⟩ := cover1 px hx a1 (by rw [span1 hx]; exact a2)
    obtain ⟨j, hj, v, v0, v1, rfl⟩ := cover1 py hy h2.1 (by rw [span1 hy]; exact h2.2)
    obtain ⟨k, hk, w, w0, w1, rfl⟩ := cover1 pz hz h3.1 (by rw [span1 hz]; exact h3.2)
    exact ⟨_, List.mem_of_getElem? (get_3D id g hi hj hk), (u, v, w), ⟨u0, u1, v0, v1, w0, w1⟩, by rw [point_3D]⟩
  · rintro p p' P P' q q' hp hp' ⟨a1, a2, a3, a4, a5, a6⟩ ⟨b1, b2, b3, b4, b5, b6⟩ e
    obtain ⟨i, j, k, hi, hj, hk, h1, rfl⟩ := place_3D hx hy hz (by omega : 1 ≤ p+1) hp
    obtain ⟨i', j', k', hi', hj', hk', h2, rfl⟩ := place_3D hx hy hz (by omega : 1 ≤ p'+1) hp'
    rw [point_3D, point_3D] at e
    simp only [Prod.mk.injEq] at e
    have e1 := apart1 px a1 a2 b1 b2 e.1
    have e2 := apart1 py a3 a4 b3 b4 e.2.1
    have e3 := apart1 pz a5 a6 b5 b6 e.2.2
    subst e1 e2 e3
    omega

/-- The patches of a surface model fill the rectangle. -/
theorem C79_fills_surface {g : Gen K} (hx : 1 ≤ g.nx) (hy : 1 ≤ g.ny) (hLx : 0 < g.Lx*g.scale) (hLy : 0 < g.Ly*g.scale) :
    (g2_2D id g).length = g.nx*g.ny ∧ Fills g 2 (g2_2D id g) := by
  have px : 0 < g.Lx*g.scale/g.nx := div_pos hLx (by exact_mod_cast hx)
  have py : 0 < g.Ly*g.scale/g.ny := div_pos hLy (by exact_mod_cast hy)
  refine ⟨len_2D id g hx hy, ?_, ?_, ?_⟩
  · rintro P hP q ⟨a1, a2, a3, a4, a5, a6⟩
    obtain ⟨p, hp⟩ := List.mem_iff_getElem?.1 hP
    obtain ⟨i, j, hi, hj, -, rfl⟩ := place_2D hx hy (by omega : 1 ≤ p+1) hp
    rw [point_2D]
    exact ⟨within1 hLx hi a1 a2, within1 hLy hj a3 a4, rfl⟩
  · rintro ⟨x, y, z⟩ ⟨⟨a1, a2⟩, h2, h3⟩
    simp only [Nat.le_refl, if_true, show ¬ 3 ≤ 2 by omega, if_false] at h2 h3
    subst h3
    obtain ⟨i, hi, u, u0, u1, rfl⟩ := cover1 px hx a1 (by rw [span1 hx]; exact a2)
    obtain ⟨j, hj, v, v0, v1, rfl⟩ := cover1 py hy h2.1 (by rw [span1 hy]; exact h2.2)
    exact ⟨_, List.mem_of_getElem? (get_2D id g hi hj), (u, v, 0), ⟨u0, u1, v0, v1, le_refl _, zero_le_one⟩, by rw [point_2D]⟩
  · rintro p p' P P' q q' hp hp' ⟨a1, a2, a3, a4, a5, a6⟩ ⟨b1, b2, b3, b4, b5, b6⟩ e
    obtain ⟨i, j, hi, hj, h1, rfl⟩ := place_2D hx hy (by omega : 1 ≤ p+1) hp
    obtain ⟨i', j', hi', hj', h2, rfl⟩ := place_2D hx hy (by omega : 1 ≤ p'+1) hp'
    rw [point_2D, point_2D] at e
    simp only [Prod.mk.injEq] at e
    have e1 := apart1 px a1 a2 b1 b2 e.1
    have e2 := apart1 py a3 a4 b3 b4 e.2.1
    subst e1 e2
    omega

/-- The patches of a curve model fill the interval. -/
theorem C79_fills_curve {g : Gen K} (hx : 1 ≤ g.nx) (hLx : 0 < g.Lx*g.scale) :
    (g2_1D id g).length = g.nx ∧ Fills g 1 (g2_1D id g) := by
  have px : 0 < g.Lx*g.scale/g.nx := div_pos hLx (by exact_mod_cast hx)
  refine ⟨len_1D id g hx, ?_, ?_, ?_⟩
  · rintro P hP q ⟨a1, a2, a3, a4, a5, a6⟩
    obtain ⟨p, hp⟩ := List.mem_iff_getElem?.1 hP
    obtain ⟨i, hi, -, rfl⟩ := place_1D hx (by omega : 1 ≤ p+1) hp
    rw [point_1D]
    exact ⟨within1 hLx hi a1 a2, rfl, rfl⟩
  · rintro ⟨x, y, z⟩ ⟨⟨a1, a2⟩, h2, h3⟩
    simp only [show ¬ 3 ≤ 1 by omega, show ¬ 2 ≤ 1 by omega, if_false] at h2 h3
    subst h2 h3
    obtain ⟨i, hi, u, u0, u1, rfl⟩ := cover1 px hx a1 (by rw [span1 hx]; exact a2)
    exact ⟨_, List.mem_of_getElem? (get_1D id g hi), (u, 0, 0), ⟨u0, u1, le_refl _, zero_le_one, le_refl _, zero_le_one⟩, by rw [point_1D]⟩
  · rintro p p' P P' q q' hp hp' ⟨a1, a2, a3, a4, a5, a6⟩ ⟨b1, b2, b3, b4, b5, b6⟩ e
    obtain ⟨i, hi, h1, rfl⟩ := place_1D hx (by omega : 1 ≤ p+1) hp
    obtain ⟨i', hi', h2, rfl⟩ := place_1D hx (by omega : 1 ≤ p'+1) hp'
    rw [point_1D, point_1D] at e
    simp only [Prod.mk.injEq] at e
    have e1 := apart1 px a1 a2 b1 b2 e.1
    subst e1
    omega

example : 1 ≤ boxDemo.nx ∧ 1 ≤ boxDemo.ny ∧ 1 ≤ boxDemo.nz ∧ 0 < boxDemo.Lx*boxDemo.scale ∧ 0 < boxDemo.Ly*boxDemo.scale ∧ 0 < boxDemo.Lz*boxDemo.scale := by decide +kernel

/-- However the numbers are rounded when they are printed, joined sides of a volume model coincide: both patches have the same control points there. -/
theorem C79_printed_volume {g : Gen K} (prt : K → K) (hx : 1 ≤ g.nx) (hy : 1 ≤ g.ny) (hz : 1 ≤ g.nz) (hLx : g.Lx*g.scale ≠ 0) (hLy : g.Ly*g.scale ≠ 0) (hLz : g.Lz*g.scale ≠ 0) {c : Iface}
    (hc : Connection g 3 (g2_3D id g) c) (he : c.midx % 2 = 0) : Coincide (g2_3D prt g) c.master c.midx c.slave c.sidx := by
  obtain ⟨chk, h⟩ := (conn_3D hx hy hz hLx hLy hLz c).2 hc
  have s1 : ∀ (x h : K) (i : Nat), x + ((i+1 : Nat) : K)*h + ((0 : Nat) : K)*h = x + (i : K)*h + ((1 : Nat) : K)*h := by intro x h i; push_cast; ring
  rcases mem_3D.1 h with ⟨i, j, k, hi, hj, hk, e⟩ | ⟨i, j, k, hi, hj, hk, e⟩ | ⟨i, j, k, hi, hj, hk, e⟩ | ⟨j, k, -, -, -, -, e⟩ | ⟨j, k, -, -, -, -, e⟩ |
      ⟨i, k, -, -, -, -, e⟩ | ⟨i, k, -, -, -, -, e⟩ | ⟨i, j, -, -, -, -, e⟩ | ⟨i, j, -, -, -, -, e⟩ <;> cases e
  · refine ⟨by simp [face], (ijk_range (by omega) hj hk).1, (ijk_range hi hj hk).1, _, _, get_3D prt g (by omega) hj hk, get_3D prt g hi hj hk, fun a b => ?_⟩
    simp only [patch3, corners, List.map_cons, List.map_nil, onPatch, face, onSide, lin, add, smul, s1]
    refine Prod.ext ?_ (Prod.ext ?_ ?_) <;> simp
  · refine ⟨by simp [face], (ijk_range hi (by omega) hk).1, (ijk_range hi hj hk).1, _, _, get_3D prt g hi (by omega) hk, get_3D prt g hi hj hk, fun a b => ?_⟩
    simp only [patch3, corners, List.map_cons, List.map_nil, onPatch, face, onSide, lin, add, smul, s1]
    refine Prod.ext ?_ (Prod.ext ?_ ?_) <;> simp
  · refine ⟨by simp [face], (ijk_range hi hj (by omega : k < g.nz)).1, (ijk_range hi hj hk).1, _, _, get_3D prt g hi hj (by omega), get_3D prt g hi hj hk, fun a b => ?_⟩
    simp only [patch3, corners, List.map_cons, List.map_nil, onPatch, face, onSide, lin, add, smul, s1]
    refine Prod.ext ?_ (Prod.ext ?_ ?_) <;> simp
  · simp [face] at he
  · simp [face] at he
  · simp [face] at he

theorem C79_printed_surface {g : Gen K} (prt : K → K) (hx : 1 ≤ g.nx) (hy : 1 ≤ g.ny) (hLx : g.Lx*g.scale ≠ 0) (hLy : g.Ly*g.scale ≠ 0) {c : Iface}
    (hc : Connection g 2 (g2_2D id g) c) (he : c.midx % 2 = 0) : Coincide (g2_2D prt g) c.master c.midx c.slave c.sidx := by
  obtain ⟨chk, h⟩ := (conn_2D hx hy hLx hLy c).2 hc
  have rg : ∀ {i j}, i < g.nx → j < g.ny → 1 ≤ ijk g.nx g.ny i j 0 := fun hi hj => (ijk_range hi hj (by omega : 0 < 1)).1
  rcases mem_2D.1 h with ⟨i, j, hi, hj, e⟩ | ⟨i, j, hi, hj, e⟩ | ⟨j, -, -, -, e⟩ | ⟨j, -, -, -, e⟩ | ⟨i, -, -, -, e⟩ | ⟨i, -, -, -, e⟩ <;> cases e
  · refine ⟨by simp [face], rg (by omega) hj, rg hi hj, _, _, get_2D prt g (by omega) hj, get_2D prt g hi hj, fun a b => ?_⟩
    simp only [patch2, onPatch, face, onSide, lin, add, smul, Nat.cast_add, Nat.cast_one]
    refine Prod.ext ?_ (Prod.ext ?_ ?_) <;> simp
  · refine ⟨by simp [face], rg hi (by omega), rg hi hj, _, _, get_2D prt g hi (by omega), get_2D prt g hi hj, fun a b => ?_⟩
    simp only [patch2, onPatch, face, onSide, lin, add, smul, Nat.cast_add, Nat.cast_one]
    refine Prod.ext ?_ (Prod.ext ?_ ?_) <;> simp
  · simp [face] at he
  · simp [face] at he

/-- Printing with six significant digits, for numbers between 100000 and 999999 (and not halfway between two integers). -/
def printed (x : Rat) : Rat := if (x - x.floor) * 2 < 1 then x.floor else x.floor + 1

/-- But the patches need not fill the box then: the numbers are printed with six digits only.  A unit interval at 100000, divided in three patches, is written with two patches of no
length. -/
theorem C79_printed_digits : let g : Gen Rat := { nx := 3, scale := 1, Lx := 1, Ly := 1, Lz := 1, X0 := (100000, 0, 0) }
    g2_1D printed g = [[(100000, 0, 0), (100000, 0, 0)], [(100000, 0, 0), (100001, 0, 0)], [(100001, 0, 0), (100001, 0, 0)]] := by
  decide +kernel

/-- The corner of a curve model in the plane: its second coordinate is not used. -/
theorem C79_corner_ignored : let g : Gen Rat := { nx := 1, scale := 1, Lx := 1, Ly := 1, Lz := 1, X0 := (2, 5, 7) }
    g2_1D id g = [[(2, 0, 0), (3, 0, 0)]] ∧ g2_2D id g = [[(2, 5, 0), (3, 5, 0), (2, 6, 0), (3, 6, 0)]] := by
  refine ⟨?_, ?_⟩ <;> decide +kernel

/-- In a parallel run, a periodic direction with a single patch stops the setup at the first patch that is on another process: it is looked up and used without a check. -/
theorem C79_close_elsewhere : let g : Gen Rat := { nx := 2, ny := 1, perY := true, scale := 1, Lx := 1, Ly := 1, Lz := 1, X0 := (0, 0, 0) }
    createTopology2D g { nGl := 2, myPatches := [1], nProc := 2, fem := true, joins := fun _ _ => true } = .error .nullPatch := by
  decide +kernel

end IFEM.PatchGen
