import Verif.Lemmas.PatchGenActs

/-! # Lemmas for C79: the connections made are those of the specification -/
namespace IFEM.PatchGen
open IFEM.PatchGen.Spec
variable {K : Type} [Field K] [LinearOrder K] [IsStrictOrderedRing K]

theorem step_ne {L : K} {n : Nat} (hL : L ≠ 0) (hn : 1 ≤ n) : L / n ≠ 0 :=
  div_ne_zero hL (by exact_mod_cast (by omega : n ≠ 0))

/-- The number of a patch in the list, and its place. -/
theorem place_3D {g : Gen K} {p : Nat} {P : List (Pt K)} (hx : 1 ≤ g.nx) (hy : 1 ≤ g.ny) (hz : 1 ≤ g.nz) (h1 : 1 ≤ p) (h : (g2_3D id g)[p-1]? = some P) :
    ∃ i j k, i < g.nx ∧ j < g.ny ∧ k < g.nz ∧ p = ijk g.nx g.ny i j k ∧ P = patch3 id g.X0 (g.Lx*g.scale/g.nx) (g.Ly*g.scale/g.ny) (g.Lz*g.scale/g.nz) i j k := by
  have hl := (List.getElem?_eq_some_iff.1 h).1
  rw [len_3D id g hx hy hz] at hl
  obtain ⟨i, j, k, hi, hj, hk, e⟩ := ijk_surj (nz := g.nz) h1 (by omega : p ≤ g.nx*g.ny*g.nz)
  subst e
  rw [get_3D id g hi hj hk] at h
  cases h
  exact ⟨i, j, k, hi, hj, hk, rfl, rfl⟩

theorem place_2D {g : Gen K} {p : Nat} {P : List (Pt K)} (hx : 1 ≤ g.nx) (hy : 1 ≤ g.ny) (h1 : 1 ≤ p) (h : (g2_2D id g)[p-1]? = some P) :
    ∃ i j, i < g.nx ∧ j < g.ny ∧ p = ijk g.nx g.ny i j 0 ∧ P = patch2 id g.X0 (g.Lx*g.scale/g.nx) (g.Ly*g.scale/g.ny) i j := by
  have hl := (List.getElem?_eq_some_iff.1 h).1
  rw [len_2D id g hx hy] at hl
  obtain ⟨i, j, k, hi, hj, hk, e⟩ := ijk_surj (nx := g.nx) (ny := g.ny) (nz := 1) h1 (by omega)
  have : k = 0 := by omega
  subst this
  subst e
  rw [get_2D id g hi hj] at h
  cases h
  exact ⟨i, j, hi, hj, rfl, rfl⟩

theorem place_1D {g : Gen K} {p : Nat} {P : List (Pt K)} (hx : 1 ≤ g.nx) (h1 : 1 ≤ p) (h : (g2_1D id g)[p-1]? = some P) :
    ∃ i, i < g.nx ∧ p = i+1 ∧ P = [(id (g.X0.1 + i*(g.Lx*g.scale/g.nx)), 0, 0), (id (g.X0.1 + (i+1)*(g.Lx*g.scale/g.nx)), 0, 0)] := by
  have hl := (List.getElem?_eq_some_iff.1 h).1
  rw [len_1D id g hx] at hl
  obtain ⟨i, rfl⟩ : ∃ i, p = i+1 := ⟨p-1, by omega⟩
  rw [get_1D id g (by omega)] at h
  cases h
  exact ⟨i, by omega, rfl, rfl⟩

theorem conn_3D {g : Gen K} (hx : 1 ≤ g.nx) (hy : 1 ≤ g.ny) (hz : 1 ≤ g.nz) (hLx : g.Lx*g.scale ≠ 0) (hLy : g.Ly*g.scale ≠ 0) (hLz : g.Lz*g.scale ≠ 0) (c : Iface) :
    (∃ chk, Act.join chk c ∈ acts3D g) ↔ Connection g 3 (g2_3D id g) c := by
  have nx0 : (g.nx : K) ≠ 0 := by exact_mod_cast (by omega : g.nx ≠ 0)
  have ny0 : (g.ny : K) ≠ 0 := by exact_mod_cast (by omega : g.ny ≠ 0)
  have nz0 : (g.nz : K) ≠ 0 := by exact_mod_cast (by omega : g.nz ≠ 0)
  have nx1 : ((g.nx - 1 : Nat) : K) = g.nx - 1 := by push_cast [hx]; ring
  have ny1 : ((g.ny - 1 : Nat) : K) = g.ny - 1 := by push_cast [hy]; ring
  have nz1 : ((g.nz - 1 : Nat) : K) = g.nz - 1 := by push_cast [hz]; ring
  constructor
  · rintro ⟨chk, h⟩
    rcases mem_3D.1 h with ⟨i, j, k, hi, hj, hk, e⟩ | ⟨i, j, k, hi, hj, hk, e⟩ | ⟨i, j, k, hi, hj, hk, e⟩ | ⟨j, k, -, -, -, -, e⟩ | ⟨j, k, hp, hn, hj, hk, e⟩ |
      ⟨i, k, -, -, -, -, e⟩ | ⟨i, k, hp, hn, hi, hk, e⟩ | ⟨i, j, -, -, -, -, e⟩ | ⟨i, j, hp, hn, hi, hj, e⟩ <;> cases e
    · refine ⟨rfl, rfl, rfl, rfl, by simp [face], by simp [face], by simp [face], by simp [face], .inl ⟨by simp [face], by simp [face], (ijk_range (by omega) hj hk).1, (ijk_range hi hj hk).1, _, _,
        get_3D id g (by omega) hj hk, get_3D id g hi hj hk, fun a b => ?_⟩⟩
      rw [point_3D, point_3D]
      simp only [face, onSide, Nat.cast_add, Nat.cast_one]
      refine Prod.ext ?_ (Prod.ext ?_ ?_) <;> simp
    · refine ⟨rfl, rfl, rfl, rfl, by simp [face], by simp [face], by simp [face], by simp [face], .inl ⟨by simp [face], by simp [face], (ijk_range hi (by omega) hk).1, (ijk_range hi hj hk).1, _, _,
        get_3D id g hi (by omega) hk, get_3D id g hi hj hk, fun a b => ?_⟩⟩
      rw [point_3D, point_3D]
      simp only [face, onSide, Nat.cast_add, Nat.cast_one]
      refine Prod.ext ?_ (Prod.ext ?_ ?_) <;> simp
    · refine ⟨rfl, rfl, rfl, rfl, by simp [face], by simp [face], by simp [face], by simp [face], .inl ⟨by simp [face], by simp [face], (ijk_range hi hj (by omega : k < g.nz)).1,
        (ijk_range hi hj hk).1, _, _, get_3D id g hi hj (by omega), get_3D id g hi hj hk, fun a b => ?_⟩⟩
      rw [point_3D, point_3D]
      simp only [face, onSide, Nat.cast_add, Nat.cast_one]
      refine Prod.ext ?_ (Prod.ext ?_ ?_) <;> simp
    · refine ⟨rfl, rfl, rfl, rfl, by simp [face], by simp [face], by simp [face], by simp [face], .inr ⟨0, by omega, hp, hn, rfl, rfl, (ijk_range hx hj hk).1,
        (ijk_range (by omega) hj hk).1, _, _, get_3D id g hx hj hk, get_3D id g (by omega) hj hk, fun a b => ?_⟩⟩
      rw [point_3D, point_3D]
      simp only [face, onSide, add, extent, nx1]
      refine Prod.ext ?_ (Prod.ext ?_ ?_) <;> simp
      field_simp
    · refine ⟨rfl, rfl, rfl, rfl, by simp [face], by simp [face], by simp [face], by simp [face], .inr ⟨1, by omega, hp, hn, rfl, rfl, (ijk_range hi hy hk).1,
        (ijk_range hi (by omega) hk).1, _, _, get_3D id g hi hy hk, get_3D id g hi (by omega) hk, fun a b => ?_⟩⟩
      rw [point_3D, point_3D]
      simp only [face, onSide, add, extent, ny1]
      refine Prod.ext ?_ (Prod.ext ?_ ?_) <;> simp
      field_simp
    · refine ⟨rfl, rfl, rfl, rfl, by simp [face], by simp [face], by simp [face], by simp [face], .inr ⟨2, by omega, hp, hn, rfl, rfl, (ijk_range hi hj hz).1,
        (ijk_range hi hj (by omega : g.nz - 1 < g.nz)).1, _, _, get_3D id g hi hj hz, get_3D id g hi hj (by omega), fun a b => ?_⟩⟩
      rw [point_3D, point_3D]
      simp only [face, onSide, add, extent, nz1]
      refine Prod.ext ?_ (Prod.ext ?_ ?_) <;> simp
      field_simp
  · rintro ⟨h1, h2, h3, h4, m1, m2, s1, s2, h⟩
    obtain ⟨cm, cs, ci, cj, co, cd, cb, ct⟩ := c
    simp only at h1 h2 h3 h4 m1 m2 s1 s2 h
    subst h1 h2 h3 h4
    rcases h with ⟨he, hne, hp, hq, P, Q, eP, eQ, hh⟩ | ⟨d, hd, hper, hn, rfl, rfl, hp, hq, P, Q, eP, eQ, hh⟩
    · obtain ⟨i, j, k, hi, hj, hk, rfl, rfl⟩ := place_3D hx hy hz hp eP
      obtain ⟨i', j', k', hi', hj', hk', rfl, rfl⟩ := place_3D hx hy hz hq eQ
      rcases co_3D (step_ne hLx hx) (step_ne hLy hy) (step_ne hLz hz) ⟨m1, m2⟩ ⟨s1, s2⟩ hh with
        ⟨rfl, rfl, rfl, rfl⟩ | ⟨rfl, rfl, rfl, rfl, rfl⟩ | ⟨rfl, rfl, rfl, rfl, rfl⟩ | ⟨rfl, rfl, rfl, rfl, rfl⟩ | ⟨rfl, rfl, rfl, rfl, rfl⟩ | ⟨rfl, rfl, rfl, rfl, rfl⟩ | ⟨rfl, rfl, rfl, rfl, rfl⟩
      · exact absurd rfl hne
      · exact ⟨true, mem_3D.2 (.inl ⟨_, _, _, hi', hj, hk, rfl⟩)⟩
      · simp at he
      · exact ⟨true, mem_3D.2 (.inr (.inl ⟨_, _, _, hi, hj', hk, rfl⟩))⟩
      · simp at he
      · exact ⟨true, mem_3D.2 (.inr (.inr (.inl ⟨_, _, _, hi, hj, hk', rfl⟩)))⟩
      · simp at he
    · obtain ⟨i, j, k, hi, hj, hk, rfl, rfl⟩ := place_3D hx hy hz hp eP
      obtain ⟨i', j', k', hi', hj', hk', rfl, rfl⟩ := place_3D hx hy hz hq eQ
      have e := hh 0 0
      rw [point_3D, point_3D] at e
      have fx : g.Lx*g.scale = (g.nx : K)*(g.Lx*g.scale/g.nx) := by field_simp
      have fy : g.Ly*g.scale = (g.ny : K)*(g.Ly*g.scale/g.ny) := by field_simp
      have fz : g.Lz*g.scale = (g.nz : K)*(g.Lz*g.scale/g.nz) := by field_simp
      interval_cases d
      · simp only [onSide, add, extent, Prod.mk.injEq, Nat.mul_zero, Nat.zero_add] at e
        obtain ⟨e1, e2, e3⟩ := e
        have a1 : i' + 1 = i + g.nx := scaled_eq (x := g.X0.1) (step_ne hLx hx) (by push_cast; rw [e1]; linear_combination fx)
        have a2 : j' + 0 = j + 0 := scaled_eq (x := g.X0.2.1) (step_ne hLy hy) (by push_cast; rw [e2]; ring)
        have a3 : k' + 0 = k + 0 := scaled_eq (x := g.X0.2.2) (step_ne hLz hz) (by push_cast; rw [e3]; ring)
        have b1 : i = 0 := by omega
        have b2 : i' = g.nx - 1 := by omega
        have b3 : j' = j := by omega
        have b4 : k' = k := by omega
        subst b1 b2 b3 b4
        exact ⟨false, mem_3D.2 (.inr (.inr (.inr (.inr (.inl ⟨_, _, hper, hn, hj, hk, rfl⟩)))))⟩
      · simp only [onSide, add, extent, Prod.mk.injEq, Nat.mul_one, Nat.reduceAdd] at e
        obtain ⟨e1, e2, e3⟩ := e
        have a1 : i' + 0 = i + 0 := scaled_eq (x := g.X0.1) (step_ne hLx hx) (by push_cast; rw [e1]; ring)
        have a2 : j' + 1 = j + g.ny := scaled_eq (x := g.X0.2.1) (step_ne hLy hy) (by push_cast; rw [e2]; linear_combination fy)
        have a3 : k' + 0 = k + 0 := scaled_eq (x := g.X0.2.2) (step_ne hLz hz) (by push_cast; rw [e3]; ring)
        have b1 : i' = i := by omega
        have b2 : j' = g.ny - 1 := by omega
        have b3 : j = 0 := by omega
        have b4 : k' = k := by omega
        subst b1 b2 b3 b4
        exact ⟨false, mem_3D.2 (.inr (.inr (.inr (.inr (.inr (.inr (.inl ⟨_, _, hper, hn, hi, hk, rfl⟩)))))))⟩
      · simp only [onSide, add, extent, Prod.mk.injEq, Nat.reduceMul, Nat.reduceAdd] at e
        obtain ⟨e1, e2, e3⟩ := e
        have a1 : i' + 0 = i + 0 := scaled_eq (x := g.X0.1) (step_ne hLx hx) (by push_cast; rw [e1]; ring)
        have a2 : j' + 0 = j + 0 := scaled_eq (x := g.X0.2.1) (step_ne hLy hy) (by push_cast; rw [e2]; ring)
        have a3 : k' + 1 = k + g.nz := scaled_eq (x := g.X0.2.2) (step_ne hLz hz) (by push_cast; rw [e3]; linear_combination fz)
        have b1 : i' = i := by omega
        have b2 : j' = j := by omega
        have b3 : k = 0 := by omega
        have b4 : k' = g.nz - 1 := by omega
        subst b1 b2 b3 b4
        exact ⟨false, mem_3D.2 (.inr (.inr (.inr (.inr (.inr (.inr (.inr (.inr ⟨_, _, hper, hn, hi, hj, rfl⟩))))))))⟩

theorem conn_2D {g : Gen K} (hx : 1 ≤ g.nx) (hy : 1 ≤ g.ny) (hLx : g.Lx*g.scale ≠ 0) (hLy : g.Ly*g.scale ≠ 0) (c : Iface) :
    (∃ chk, Act.join chk c ∈ acts2D g) ↔ Connection g 2 (g2_2D id g) c := by
  have nx0 : (g.nx : K) ≠ 0 := by exact_mod_cast (by omega : g.nx ≠ 0)
  have ny0 : (g.ny : K) ≠ 0 := by exact_mod_cast (by omega : g.ny ≠ 0)
  have nx1 : ((g.nx - 1 : Nat) : K) = g.nx - 1 := by push_cast [hx]; ring
  have ny1 : ((g.ny - 1 : Nat) : K) = g.ny - 1 := by push_cast [hy]; ring
  have rg : ∀ {i j}, i < g.nx → j < g.ny → 1 ≤ ijk g.nx g.ny i j 0 := fun hi hj => (ijk_range hi hj (by omega : 0 < 1)).1
  constructor
  · rintro ⟨chk, h⟩
    rcases mem_2D.1 h with ⟨i, j, hi, hj, e⟩ | ⟨i, j, hi, hj, e⟩ | ⟨j, -, -, -, e⟩ | ⟨j, hp, hn, hj, e⟩ | ⟨i, -, -, -, e⟩ | ⟨i, hp, hn, hi, e⟩ <;> cases e
    · refine ⟨rfl, rfl, rfl, rfl, by simp [face], by simp [face], by simp [face], by simp [face], .inl ⟨by simp [face], by simp [face], rg (by omega) hj, rg hi hj, _, _,
        get_2D id g (by omega) hj, get_2D id g hi hj, fun a b => ?_⟩⟩
      rw [point_2D, point_2D]
      simp only [face, onSide, Nat.cast_add, Nat.cast_one]
      refine Prod.ext ?_ (Prod.ext ?_ ?_) <;> simp
    · refine ⟨rfl, rfl, rfl, rfl, by simp [face], by simp [face], by simp [face], by simp [face], .inl ⟨by simp [face], by simp [face], rg hi (by omega), rg hi hj, _, _,
        get_2D id g hi (by omega), get_2D id g hi hj, fun a b => ?_⟩⟩
      rw [point_2D, point_2D]
      simp only [face, onSide, Nat.cast_add, Nat.cast_one]
      refine Prod.ext ?_ (Prod.ext ?_ ?_) <;> simp
    · refine ⟨rfl, rfl, rfl, rfl, by simp [face], by simp [face], by simp [face], by simp [face], .inr ⟨0, by omega, hp, hn, rfl, rfl, rg hx hj,
        rg (by omega) hj, _, _, get_2D id g hx hj, get_2D id g (by omega) hj, fun a b => ?_⟩⟩
      rw [point_2D, point_2D]
      simp only [face, onSide, add, extent, nx1]
      refine Prod.ext ?_ (Prod.ext ?_ ?_) <;> simp
      field_simp
    · refine ⟨rfl, rfl, rfl, rfl, by simp [face], by simp [face], by simp [face], by simp [face], .inr ⟨1, by omega, hp, hn, rfl, rfl, rg hi hy,
        rg hi (by omega), _, _, get_2D id g hi hy, get_2D id g hi (by omega), fun a b => ?_⟩⟩
      rw [point_2D, point_2D]
      simp only [face, onSide, add, extent, ny1]
      refine Prod.ext ?_ (Prod.ext ?_ ?_) <;> simp
      field_simp
  · rintro ⟨h1, h2, h3, h4, m1, m2, s1, s2, h⟩
    obtain ⟨cm, cs, ci, cj, co, cd, cb, ct⟩ := c
    simp only at h1 h2 h3 h4 m1 m2 s1 s2 h
    subst h1 h2 h3 h4
    rcases h with ⟨he, hne, hp, hq, P, Q, eP, eQ, hh⟩ | ⟨d, hd, hper, hn, rfl, rfl, hp, hq, P, Q, eP, eQ, hh⟩
    · obtain ⟨i, j, hi, hj, rfl, rfl⟩ := place_2D hx hy hp eP
      obtain ⟨i', j', hi', hj', rfl, rfl⟩ := place_2D hx hy hq eQ
      rcases co_2D (step_ne hLx hx) (step_ne hLy hy) ⟨m1, m2⟩ ⟨s1, s2⟩ hh with
        ⟨rfl, rfl, rfl⟩ | ⟨rfl, rfl, rfl, rfl⟩ | ⟨rfl, rfl, rfl, rfl⟩ | ⟨rfl, rfl, rfl, rfl⟩ | ⟨rfl, rfl, rfl, rfl⟩
      · exact absurd rfl hne
      · exact ⟨true, mem_2D.2 (.inl ⟨_, _, hi', hj, rfl⟩)⟩
      · simp at he
      · exact ⟨true, mem_2D.2 (.inr (.inl ⟨_, _, hi, hj', rfl⟩))⟩
      · simp at he
    · obtain ⟨i, j, hi, hj, rfl, rfl⟩ := place_2D hx hy hp eP
      obtain ⟨i', j', hi', hj', rfl, rfl⟩ := place_2D hx hy hq eQ
      have e := hh 0 0
      rw [point_2D, point_2D] at e
      have fx : g.Lx*g.scale = (g.nx : K)*(g.Lx*g.scale/g.nx) := by field_simp
      have fy : g.Ly*g.scale = (g.ny : K)*(g.Ly*g.scale/g.ny) := by field_simp
      interval_cases d
      · simp only [onSide, add, extent, Prod.mk.injEq, Nat.mul_zero, Nat.zero_add] at e
        obtain ⟨e1, e2, -⟩ := e
        have a1 : i' + 1 = i + g.nx := scaled_eq (x := g.X0.1) (step_ne hLx hx) (by push_cast; rw [e1]; linear_combination fx)
        have a2 : j' + 0 = j + 0 := scaled_eq (x := g.X0.2.1) (step_ne hLy hy) (by push_cast; rw [e2]; ring)
        have b1 : i = 0 := by omega
        have b2 : i' = g.nx - 1 := by omega
        have b3 : j' = j := by omega
        subst b1 b2 b3
        exact ⟨false, mem_2D.2 (.inr (.inr (.inr (.inl ⟨_, hper, hn, hj, rfl⟩))))⟩
      · simp only [onSide, add, extent, Prod.mk.injEq, Nat.mul_one, Nat.reduceAdd] at e
        obtain ⟨e1, e2, -⟩ := e
        have a1 : i' + 0 = i + 0 := scaled_eq (x := g.X0.1) (step_ne hLx hx) (by push_cast; rw [e1]; ring)
        have a2 : j' + 1 = j + g.ny := scaled_eq (x := g.X0.2.1) (step_ne hLy hy) (by push_cast; rw [e2]; linear_combination fy)
        have b1 : i' = i := by omega
        have b2 : j' = g.ny - 1 := by omega
        have b3 : j = 0 := by omega
        subst b1 b2 b3
        exact ⟨false, mem_2D.2 (.inr (.inr (.inr (.inr (.inr ⟨_, hper, hn, hi, rfl⟩)))))⟩

theorem conn_1D {g : Gen K} (hx : 1 ≤ g.nx) (hLx : g.Lx*g.scale ≠ 0) (c : Iface) :
    (∃ chk, Act.join chk c ∈ acts1D g) ↔ Connection g 1 (g2_1D id g) c := by
  have nx0 : (g.nx : K) ≠ 0 := by exact_mod_cast (by omega : g.nx ≠ 0)
  have nx1 : ((g.nx - 1 : Nat) : K) = g.nx - 1 := by push_cast [hx]; ring
  constructor
  · rintro ⟨chk, h⟩
    rcases mem_1D.1 h with ⟨i, hi, e⟩ | ⟨-, -, e⟩ | ⟨hp, hn, e⟩ <;> cases e
    · refine ⟨rfl, rfl, rfl, rfl, by simp [face], by simp [face], by simp [face], by simp [face], .inl ⟨by simp [face], by simp [face], by simp [face], by simp [face], _, _,
        get_1D id g (by omega), get_1D id g hi, fun a b => ?_⟩⟩
      rw [point_1D, point_1D]
      simp only [face, onSide, Nat.cast_add, Nat.cast_one]
      refine Prod.ext ?_ (Prod.ext ?_ ?_) <;> simp
    · obtain ⟨m, hm⟩ : ∃ m, g.nx = m+1 := ⟨g.nx-1, by omega⟩
      have hm' : ((m : Nat) : K) = g.nx - 1 := by rw [hm]; push_cast; ring
      refine ⟨rfl, rfl, rfl, rfl, by simp [face], by simp [face], by simp [face], by simp [face], .inr ⟨0, by omega, hp, hn, rfl, rfl, by simp [face],
        by simp only [face]; omega, _, [(id (g.X0.1 + m*(g.Lx*g.scale/g.nx)), 0, 0), (id (g.X0.1 + (m+1)*(g.Lx*g.scale/g.nx)), 0, 0)], get_1D id g (i := 0) hx, ?_, ?_⟩⟩
      · have := get_1D id g (i := m) (by omega)
        rw [← this]
        simp only [face, hm]
      intro a b
      rw [point_1D, point_1D, hm']
      simp only [face, onSide, add, extent]
      refine Prod.ext ?_ (Prod.ext ?_ ?_) <;> simp
      field_simp
  · rintro ⟨h1, h2, h3, h4, m1, m2, s1, s2, h⟩
    obtain ⟨cm, cs, ci, cj, co, cd, cb, ct⟩ := c
    simp only at h1 h2 h3 h4 m1 m2 s1 s2 h
    subst h1 h2 h3 h4
    rcases h with ⟨he, hne, hp, hq, P, Q, eP, eQ, hh⟩ | ⟨d, hd, hper, hn, rfl, rfl, hp, hq, P, Q, eP, eQ, hh⟩
    · obtain ⟨i, hi, rfl, rfl⟩ := place_1D hx hp eP
      obtain ⟨i', hi', rfl, rfl⟩ := place_1D hx hq eQ
      rcases co_1D (step_ne hLx hx) ⟨m1, m2⟩ ⟨s1, s2⟩ hh with ⟨rfl, rfl⟩ | ⟨rfl, rfl, rfl⟩ | ⟨rfl, rfl, rfl⟩
      · exact absurd rfl hne
      · exact ⟨true, mem_1D.2 (.inl ⟨_, hi', rfl⟩)⟩
      · simp at he
    · obtain ⟨i, hi, rfl, rfl⟩ := place_1D hx hp eP
      obtain ⟨i', hi', rfl, rfl⟩ := place_1D hx hq eQ
      have e := hh 0 0
      rw [point_1D, point_1D] at e
      have fx : g.Lx*g.scale = (g.nx : K)*(g.Lx*g.scale/g.nx) := by field_simp
      have : d = 0 := by omega
      subst this
      simp only [onSide, add, extent, Prod.mk.injEq, Nat.mul_zero, Nat.zero_add] at e
      obtain ⟨e1, -⟩ := e
      have a1 : i' + 1 = i + g.nx := scaled_eq (x := g.X0.1) (step_ne hLx hx) (by push_cast; rw [e1]; linear_combination fx)
      have b1 : i = 0 := by omega
      subst b1
      exact ⟨false, mem_1D.2 (.inr (.inr ⟨hper, hn, by simp only [face, a1]; simp⟩))⟩

end IFEM.PatchGen
