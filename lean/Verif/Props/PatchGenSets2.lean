import Verif.Props.PatchGenSets

/-!
# C79: the topology sets of generated surface and curve models
-/
namespace IFEM.PatchGen
open IFEM.PatchGen.Spec

section
variable {K : Type} {g : Gen K} {s : Sim}

theorem ijk0 (nx ny i j : Nat) : ijk nx ny i j 0 = 1 + j*nx + i := by unfold ijk; simp

/-- The part of the sides in one direction. -/
def Part (g : Gen K) (s : Sim) (n : Name) (t : Item) (lo : Nat) : Prop :=
  ∃ i j r, i < g.nx ∧ j < g.ny ∧ (r = lo ∨ r = lo+1) ∧ atSide g.nx g.ny 1 r i j 0 ∧ Here s (ijk g.nx g.ny i j 0) t.patch ∧ sideEntry .edge .edgePatches 1 r n t

theorem mem_sides2D (hx : 1 ≤ g.nx) (hy : 1 ≤ g.ny) (hs : s.nGl = g.nx*g.ny) {n : Name} {t : Item} :
    (n, t) ∈ sides2D g s ↔ Part g s n t 1 ∨ (n = .boundaryDir 0 ∧ (Part g s (.edge 1) t 1 ∨ Part g s (.edge 2) t 1)) ∨
      Part g s n t 3 ∨ (n = .boundaryDir 1 ∧ (Part g s (.edge 3) t 3 ∨ Part g s (.edge 4) t 3)) := by
  have hh : ∀ {i j}, i < g.nx → j < g.ny → ((0 < t.patch ∧ asSize (localIndex s (ijk g.nx g.ny i j 0)) = t.patch) ↔ Here s (ijk g.nx g.ny i j 0) t.patch) :=
    fun hi hj => here_iff (ijk_range hi hj (by omega : 0 < 1)).1 (by rw [hs]; simpa using (ijk_range hi hj (by omega : 0 < 1)).2)
  have one : ∀ {n : Name} {i j r p : Nat}, i < g.nx → j < g.ny → p = ijk g.nx g.ny i j 0 →
      ((n, t) ∈ insertion s [.edge r, .boundary] (some (.edgePatches r)) 2 ⟨p, r, 1⟩ ↔ Here s (ijk g.nx g.ny i j 0) t.patch ∧ sideEntry .edge .edgePatches 1 r n t) := by
    rintro n i j r p hi hj rfl
    rw [mem_insertion, ← and_assoc, hh hi hj]
    unfold sideEntry
    simp [eq_comm]
  have ea : ∀ {n : Name}, (n, t) ∈ ((List.range g.ny).flatMap fun i =>
      insertion s [.edge 1, .boundary] (some (.edgePatches 1)) 2 ⟨i*g.nx+1, 1, 1⟩ ++
      insertion s [.edge 2, .boundary] (some (.edgePatches 2)) 2 ⟨(i+1)*g.nx, 2, 1⟩) ↔ Part g s n t 1 := by
    intro n
    have e1 : ∀ j, j*g.nx+1 = ijk g.nx g.ny 0 j 0 := by intro j; rw [ijk0]; omega
    have e2 : ∀ j, (j+1)*g.nx = ijk g.nx g.ny (g.nx-1) j 0 := by intro j; rw [ijk0, Nat.add_mul]; omega
    simp only [List.mem_flatMap, List.mem_range, List.mem_append]
    constructor
    · rintro ⟨j, hj, h | h⟩
      · rw [one hx hj (e1 j)] at h
        exact ⟨0, j, 1, hx, hj, .inl rfl, rfl, h⟩
      · rw [one (by omega) hj (e2 j)] at h
        exact ⟨g.nx-1, j, 2, by omega, hj, .inr rfl, rfl, h⟩
    · rintro ⟨i, j, r, hi, hj, rfl | rfl, ha, h⟩ <;> simp only [atSide] at ha <;> subst ha
      · exact ⟨j, hj, .inl ((one hi hj (e1 j)).2 h)⟩
      · exact ⟨j, hj, .inr ((one hi hj (e2 j)).2 h)⟩
  have eb : ∀ {n : Name}, (n, t) ∈ ((List.range g.nx).flatMap fun i =>
      insertion s [.edge 3, .boundary] (some (.edgePatches 3)) 2 ⟨i+1, 3, 1⟩ ++
      insertion s [.edge 4, .boundary] (some (.edgePatches 4)) 2 ⟨g.nx*(g.ny-1)+1+i, 4, 1⟩) ↔ Part g s n t 3 := by
    intro n
    have e1 : ∀ i, i+1 = ijk g.nx g.ny i 0 0 := by intro i; rw [ijk0]; omega
    have e2 : ∀ i, g.nx*(g.ny-1)+1+i = ijk g.nx g.ny i (g.ny-1) 0 := by intro i; rw [ijk0, Nat.mul_comm]; omega
    simp only [List.mem_flatMap, List.mem_range, List.mem_append]
    constructor
    · rintro ⟨i, hi, h | h⟩
      · rw [one hi hy (e1 i)] at h
        exact ⟨i, 0, 3, hi, hy, .inl rfl, rfl, h⟩
      · rw [one hi (by omega) (e2 i)] at h
        exact ⟨i, g.ny-1, 4, hi, by omega, .inr rfl, rfl, h⟩
    · rintro ⟨i, j, r, hi, hj, rfl | rfl, ha, h⟩ <;> simp only [atSide] at ha <;> subst ha
      · exact ⟨i, hi, .inl ((one hi hj (e1 i)).2 h)⟩
      · exact ⟨i, hi, .inr ((one hi hj (e2 i)).2 h)⟩
  have dir : ∀ (l : Sets) (e e' : Name) (d : Nat), (n, t) ∈ (setOf l e ++ setOf l e').map (fun x => (Name.boundaryDir d, x)) ↔ n = .boundaryDir d ∧ ((e, t) ∈ l ∨ (e', t) ∈ l) := by
    intro l e e' d
    simp only [List.mem_map, List.mem_append, mem_setOf]
    constructor
    · rintro ⟨t', h, h'⟩
      cases h'
      exact ⟨rfl, h⟩
    · rintro ⟨rfl, h⟩
      exact ⟨t, h, rfl⟩
  unfold sides2D
  dsimp only
  rw [List.mem_append, List.mem_append, List.mem_append, dir, dir, ea, ea, ea, eb, eb, eb]
  tauto

/-- A side set contains only its own kind of names. -/
theorem part_names {n : Name} {t : Item} {lo : Nat} (h : Part g s n t lo) : (∃ r, n = .edge r) ∨ n = .boundary ∨ ∃ r, n = .edgePatches r := by
  obtain ⟨i, j, r, -, -, -, -, -, ⟨h | h, -⟩ | ⟨h, -⟩⟩ := h
  · exact .inl ⟨r, h⟩
  · exact .inr (.inl h)
  · exact .inr (.inr ⟨r, h⟩)

theorem part_edge {r : Nat} {t : Item} {lo : Nat} (h : Part g s (.edge r) t lo) : r = lo ∨ r = lo+1 := by
  obtain ⟨i, j, r', -, -, hr, -, -, ⟨h | h, -⟩ | ⟨h, -⟩⟩ := h <;> cases h
  exact hr

theorem sides_names {n : Name} {t : Item} (hx : 1 ≤ g.nx) (hy : 1 ≤ g.ny) (hs : s.nGl = g.nx*g.ny) (h : (n, t) ∈ sides2D g s) :
    (∃ r, n = .edge r) ∨ n = .boundary ∨ (∃ r, n = .edgePatches r) ∨ ∃ d, n = .boundaryDir d := by
  rcases (mem_sides2D hx hy hs).1 h with h | ⟨h, -⟩ | h | ⟨h, -⟩
  · rcases part_names h with h | h | h <;> tauto
  · exact .inr (.inr (.inr ⟨_, h⟩))
  · rcases part_names h with h | h | h <;> tauto
  · exact .inr (.inr (.inr ⟨_, h⟩))

theorem vertices2_names {n : Name} {t : Item} (h : (n, t) ∈ vertices2D g s) : (∃ r, n = .vertex r) ∨ n = .corners := by
  unfold vertices2D at h
  simp only [List.mem_append, mem_insertion] at h
  rcases h with ((h | h) | h) | h <;>
  · obtain ⟨-, -, ⟨h, -⟩ | ⟨h, -⟩⟩ := h
    · simp only [List.mem_cons, List.not_mem_nil, or_false] at h
      rcases h with h | h
      · exact .inl ⟨_, h⟩
      · exact .inr h
    · cases h

theorem mem_vertices2D (hx : 1 ≤ g.nx) (hy : 1 ≤ g.ny) (hs : s.nGl = g.nx*g.ny) {n : Name} {t : Item} :
    (n, t) ∈ vertices2D g s ↔ ∃ i j v, i < g.nx ∧ j < g.ny ∧ 1 ≤ v ∧ v ≤ 4 ∧ atCorner g.nx g.ny 1 v i j 0 ∧ Here s (ijk g.nx g.ny i j 0) t.patch ∧
      (n = .vertex v ∨ n = .corners) ∧ t.item = v ∧ t.idim = 0 := by
  have one : ∀ {i j v p : Nat}, i < g.nx → j < g.ny → p = ijk g.nx g.ny i j 0 →
      ((n, t) ∈ insertion s [.vertex v, .corners] none 0 ⟨p, v, 0⟩ ↔ Here s (ijk g.nx g.ny i j 0) t.patch ∧ (n = .vertex v ∨ n = .corners) ∧ t.item = v ∧ t.idim = 0) := by
    rintro i j v p hi hj rfl
    rw [mem_insertion, ← and_assoc, here_iff (ijk_range hi hj (by omega : 0 < 1)).1 (by rw [hs]; simpa using (ijk_range hi hj (by omega : 0 < 1)).2)]
    simp
  have e1 : 1 = ijk g.nx g.ny 0 0 0 := by rw [ijk0]; omega
  have e2 : g.nx = ijk g.nx g.ny (g.nx-1) 0 0 := by rw [ijk0]; omega
  have e3 : g.nx*(g.ny-1)+1 = ijk g.nx g.ny 0 (g.ny-1) 0 := by rw [ijk0, Nat.mul_comm]; omega
  have e4 : g.nx*g.ny = ijk g.nx g.ny (g.nx-1) (g.ny-1) 0 := by
    rw [ijk0]
    obtain ⟨m, hm⟩ : ∃ m, g.ny = m+1 := ⟨g.ny-1, by omega⟩
    rw [hm, Nat.add_sub_cancel, Nat.mul_add, Nat.mul_comm]
    omega
  unfold vertices2D
  rw [List.mem_append, List.mem_append, List.mem_append, one hx hy e1, one (by omega) hy e2, one hx (by omega) e3, one (by omega) (by omega) e4]
  constructor
  · rintro (((h | h) | h) | h)
    · exact ⟨0, 0, 1, hx, hy, by omega, by omega, ⟨by simp, by simp, by simp⟩, h⟩
    · exact ⟨g.nx-1, 0, 2, by omega, hy, by omega, by omega, ⟨by simp, by simp, by simp⟩, h⟩
    · exact ⟨0, g.ny-1, 3, hx, by omega, by omega, by omega, ⟨by simp, by simp, by simp⟩, h⟩
    · exact ⟨g.nx-1, g.ny-1, 4, by omega, by omega, by omega, by omega, ⟨by simp, by simp, by simp⟩, h⟩
  · rintro ⟨i, j, v, hi, hj, h1, h2, ⟨e1, e2, -⟩, h⟩
    interval_cases v <;> simp at e1 e2 <;> subst e1 e2
    · exact .inl (.inl (.inl h))
    · exact .inl (.inl (.inr h))
    · exact .inl (.inr h)
    · exact .inr h

end

variable {K : Type} [Field K] [LinearOrder K] [IsStrictOrderedRing K] {g : Gen K} {s : Sim}

/-- The sides of a surface model. -/
def facts_2D (hx : 1 ≤ g.nx) (hy : 1 ≤ g.ny) (hLx : g.Lx*g.scale ≠ 0) (hLy : g.Ly*g.scale ≠ 0) (hs : s.nGl = (g2_2D id g).length) :
    SideFacts g s 2 (g2_2D id g) .edge .edgePatches (sides2D g s) where
  At r p := ∃ i j, i < g.nx ∧ j < g.ny ∧ p = ijk g.nx g.ny i j 0 ∧ atSide g.nx g.ny 1 r i j 0
  mem n t hn := by
    have hl := len_2D id g hx hy
    rw [mem_sides2D hx hy (hs.trans hl), hl]
    constructor
    · have mk : ∀ lo, lo = 1 ∨ lo = 3 → Part g s n t lo → ∃ p r, 1 ≤ p ∧ p ≤ g.nx*g.ny ∧ 1 ≤ r ∧ r ≤ 2*2 ∧ (∃ i j, i < g.nx ∧ j < g.ny ∧ p = ijk g.nx g.ny i j 0 ∧ atSide g.nx g.ny 1 r i j 0) ∧
          Here s p t.patch ∧ sideEntry .edge .edgePatches (2-1) r n t := by
        rintro lo hlo ⟨i, j, r, hi, hj, h1, h3, h4, h5⟩
        exact ⟨_, r, (ijk_range hi hj (by omega : 0 < 1)).1, by simpa using (ijk_range hi hj (by omega : 0 < 1)).2, by omega, by omega, ⟨i, j, hi, hj, rfl, h3⟩, h4, h5⟩
      rintro (h | ⟨h, -⟩ | h | ⟨h, -⟩)
      · exact mk 1 (.inl rfl) h
      · exact absurd h (hn _)
      · exact mk 3 (.inr rfl) h
      · exact absurd h (hn _)
    · rintro ⟨p, r, -, -, h1, h2, ⟨i, j, hi, hj, rfl, h3⟩, h4, h5⟩
      by_cases hr : r ≤ 2
      · exact .inl ⟨i, j, r, hi, hj, by omega, h3, h4, h5⟩
      · exact .inr (.inr (.inl ⟨i, j, r, hi, hj, by omega, h3, h4, h5⟩))
  on p r P h1 e h3 h4 := by
    obtain ⟨i, j, hi, hj, rfl, rfl⟩ := place_2D hx hy h1 e
    rw [← side_2D hx hy hLx hLy h3 h4]
    constructor
    · rintro ⟨i', j', hi', hj', e, h⟩
      obtain ⟨rfl, rfl, -⟩ := ijk_inj hi hi' hj hj' e
      exact h
    · intro h
      exact ⟨i, j, hi, hj, rfl, h⟩
  free p r h1 h2 h3 h4 := by
    rw [len_2D id g hx hy] at h2
    obtain ⟨i, j, k, hi, hj, hk, rfl⟩ := ijk_surj (nz := 1) h1 (by simpa using h2)
    obtain rfl : k = 0 := by omega
    rw [free_2D hx hy hLx hLy h3 h4 hi hj, not_iff_not]
    constructor
    · intro h
      exact ⟨i, j, hi, hj, rfl, h⟩
    · rintro ⟨i', j', hi', hj', e, h⟩
      obtain ⟨rfl, rfl, -⟩ := ijk_inj hi hi' hj hj' e
      exact h
  inj _ _ h := Name.edge.inj h
  injW _ _ h := Name.edgePatches.inj h
  ne _ _ := by simp

/-- The sets of a surface model. -/
theorem C79_sets_surface (hx : 1 ≤ g.nx) (hy : 1 ≤ g.ny) (hLx : g.Lx*g.scale ≠ 0) (hLy : g.Ly*g.scale ≠ 0)
    (hs : s.nGl = (g2_2D id g).length) (hset : g.sets = true) :
    ∃ S, createTopologySets2D g s = some S ∧ ∀ t : Item,
      (∀ r, (.edge r, t) ∈ S ↔ SideSet g s 2 (g2_2D id g) r t) ∧
      (∀ r, (.edgePatches r, t) ∈ S ↔ t.item = 0 ∧ t.idim = 2 ∧ ∃ u, (.edge r, u) ∈ S ∧ u.patch = t.patch) ∧
      ((.boundary, t) ∈ S ↔ BoundarySet s 2 (g2_2D id g) t) ∧
      (∀ d, (.boundaryDir d, t) ∈ S ↔ d < 2 ∧ ((.edge (2*d+1), t) ∈ S ∨ (.edge (2*d+2), t) ∈ S)) ∧
      (∀ v, (.vertex v, t) ∈ S ↔ VertexSet g s 2 (g2_2D id g) v t) ∧
      ((.corners, t) ∈ S ↔ ∃ v, (.vertex v, t) ∈ S) ∧
      ((.inner, t) ∈ S ↔ InnerSet s 2 (g2_2D id g) t) := by
  have hl := len_2D id g hx hy
  have F := facts_2D (s := s) hx hy hLx hLy hs
  have hf : ∀ {n t}, ((∃ r, n = Name.edge r) ∨ n = .boundary ∨ (∃ r, n = Name.edgePatches r) ∨ ∃ d, n = Name.boundaryDir d) → ∀ {u}, ((n, t) ∈ sides2D g s ++ vertices2D g s ++ innerPatches s (g.nx*g.ny) 2 u ↔ (n, t) ∈ sides2D g s) := by
    intro n t hn u
    simp only [List.mem_append]
    constructor
    · rintro ((h | h) | h)
      · exact h
      · rcases vertices2_names h with ⟨r, rfl⟩ | rfl <;> simp at hn
      · cases inner_names h; simp at hn
    · intro h; exact .inl (.inl h)
  have hfl : ∀ {r t}, ((.edgePatches r, t) ∈ sides2D g s ++ vertices2D g s ↔ (.edgePatches r, t) ∈ sides2D g s) := by
    intro r t
    simp only [List.mem_append]
    constructor
    · rintro (h | h)
      · exact h
      · rcases vertices2_names h with ⟨r, e⟩ | e <;> cases e
    · intro h; exact .inl h
  unfold createTopologySets2D
  rw [if_pos hset]
  refine ⟨_, rfl, fun t => ?_⟩
  have hv : ∀ {n : Name} {u}, ((∃ r, n = Name.vertex r) ∨ n = .corners) → ((n, t) ∈ sides2D g s ++ vertices2D g s ++ innerPatches s (g.nx*g.ny) 2 u ↔ (n, t) ∈ vertices2D g s) := by
    intro n u hn
    simp only [List.mem_append]
    constructor
    · rintro ((h | h) | h)
      · rcases sides_names hx hy (hs.trans hl) h with ⟨r, rfl⟩ | rfl | ⟨r, rfl⟩ | ⟨r, rfl⟩ <;> simp at hn
      · exact h
      · cases inner_names h; simp at hn
    · intro h; exact .inl (.inr h)
  have m2 := fun (n : Name) => mem_sides2D hx hy (hs.trans hl) (n := n) (t := t)
  refine ⟨fun r => ?_, fun r => ?_, ?_, fun d => ?_, fun v => ?_, ?_, ?_⟩
  · rw [hf (.inl ⟨r, rfl⟩)]; exact F.side_iff
  · rw [hf (.inr (.inr (.inl ⟨r, rfl⟩))), F.whole_iff (by omega)]
    simp only [hf (.inl ⟨r, rfl⟩)]
  · rw [hf (.inr (.inl rfl))]; exact F.boundary_iff
  · rw [hf (.inr (.inr (.inr ⟨d, rfl⟩))), hf (.inl ⟨_, rfl⟩), hf (.inl ⟨_, rfl⟩), m2, m2, m2]
    have nd : ∀ lo, ¬ Part g s (.boundaryDir d) t lo := by
      intro lo h
      rcases part_names h with ⟨r, e⟩ | e | ⟨r, e⟩ <;> cases e
    simp only [nd, false_or, Name.boundaryDir.injEq, reduceCtorEq, false_and, or_false]
    constructor
    · rintro (⟨rfl, h⟩ | ⟨rfl, h⟩)
      · exact ⟨by omega, by tauto⟩
      · exact ⟨by omega, by tauto⟩
    · rintro ⟨hd, h⟩
      interval_cases d
      · left
        refine ⟨rfl, ?_⟩
        rcases h with (h | h) | (h | h)
        · exact .inl h
        · have := part_edge h; omega
        · exact .inr h
        · have := part_edge h; omega
      · right
        refine ⟨rfl, ?_⟩
        rcases h with (h | h) | (h | h)
        · have := part_edge h; omega
        · exact .inl h
        · have := part_edge h; omega
        · exact .inr h
  · rw [hv (.inl ⟨v, rfl⟩), mem_vertices2D hx hy (hs.trans hl)]
    constructor
    · rintro ⟨i, j, v', hi, hj, h1, h2, h3, h4, h5 | h5, h6, h7⟩
      · cases h5
        exact ⟨h1, h2, h6, h7, _, _, (ijk_range hi hj (by omega : 0 < 1)).1, get_2D id g hi hj, h4, (corner_2D hx hy hLx hLy h1 h2).1 h3⟩
      · cases h5
    · rintro ⟨h1, h2, h6, h7, p, P, h8, e, h4, h3⟩
      obtain ⟨i, j, hi, hj, rfl, rfl⟩ := place_2D hx hy h8 e
      exact ⟨i, j, v, hi, hj, h1, h2, (corner_2D hx hy hLx hLy h1 h2).2 h3, h4, .inl rfl, h6, h7⟩
  · simp only [hv (.inr rfl), hv (.inl ⟨_, rfl⟩), mem_vertices2D hx hy (hs.trans hl)]
    constructor
    · rintro ⟨i, j, v, hi, hj, h1, h2, h3, h4, -, h6⟩
      exact ⟨v, i, j, v, hi, hj, h1, h2, h3, h4, .inl rfl, h6⟩
    · rintro ⟨v', i, j, v, hi, hj, h1, h2, h3, h4, -, h6⟩
      exact ⟨i, j, v, hi, hj, h1, h2, h3, h4, .inr trivial, h6⟩
  · rw [← F.inner_iff (by omega) hs, hl]
    · simp only [List.mem_append]
      constructor
      · rintro ((h | h) | h)
        · rcases sides_names hx hy (hs.trans hl) h with ⟨r, e⟩ | e | ⟨r, e⟩ | ⟨r, e⟩ <;> cases e
        · rcases vertices2_names h with ⟨r, e⟩ | e <;> cases e
        · exact h
      · intro h; exact .inr h
    · intro q
      simp only [List.mem_flatMap, List.mem_range'_1, List.mem_map, mem_setOf, hfl]
      constructor
      · rintro ⟨r, ⟨h1, h2⟩, t, h3, h4⟩
        exact ⟨r, t, h1, by omega, h3, h4⟩
      · rintro ⟨r, t, h1, h2, h3, h4⟩
        exact ⟨r, ⟨h1, by omega⟩, t, h3, h4⟩

end IFEM.PatchGen
