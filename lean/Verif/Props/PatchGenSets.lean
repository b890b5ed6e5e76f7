import Verif.Lemmas.PatchGenSets
import Verif.Props.PatchGen

/-!
# C79: the topology sets of generated models

The named sets are exactly the sides, vertices and patches that their names say, with the patch numbers of the process.
-/
namespace IFEM.PatchGen
open IFEM.PatchGen.Spec
variable {K : Type} [Field K] [LinearOrder K] [IsStrictOrderedRing K]

/-- What is shared by surface and volume models: the patch `p` is at side `r` of the box, and the sets of the sides contain just those sides. -/
structure SideFacts (g : Gen K) (s : Sim) (dim : Nat) (geo : List (List (Pt K))) (side whole : Nat → Name) (sides : Sets) where
  At : Nat → Nat → Prop
  mem : ∀ n t, (∀ d, n ≠ .boundaryDir d) → ((n, t) ∈ sides ↔ ∃ p r, 1 ≤ p ∧ p ≤ geo.length ∧ 1 ≤ r ∧ r ≤ 2*dim ∧ At r p ∧ Here s p t.patch ∧ sideEntry side whole (dim-1) r n t)
  on : ∀ p r P, 1 ≤ p → geo[p-1]? = some P → 1 ≤ r → r ≤ 2*dim → (At r p ↔ ∀ a b : K, OnDomainSide g r (onPatch P (onSide r a b)))
  free : ∀ p r, 1 ≤ p → p ≤ geo.length → 1 ≤ r → r ≤ 2*dim → ((∃ q u, 1 ≤ u ∧ u ≤ 2*dim ∧ Coincide geo p r q u) ↔ ¬ At r p)
  inj : ∀ r r', side r = side r' → r = r'
  injW : ∀ r r', whole r = whole r' → r = r'
  ne : ∀ r r', side r ≠ whole r' ∧ side r ≠ .boundary ∧ whole r ≠ .boundary ∧ (∀ d, side r ≠ .boundaryDir d) ∧ (∀ d, whole r ≠ .boundaryDir d)

variable {g : Gen K} {s : Sim} {dim : Nat} {geo : List (List (Pt K))} {side whole : Nat → Name} {sides : Sets}

omit [LinearOrder K] [IsStrictOrderedRing K] in
theorem SideFacts.side_iff (F : SideFacts g s dim geo side whole sides) {r : Nat} {t : Item} : (side r, t) ∈ sides ↔ SideSet g s dim geo r t := by
  rw [F.mem _ _ (F.ne r r).2.2.2.1]
  constructor
  · rintro ⟨p, r', h1, h2, h3, h4, h5, h6, ⟨h7 | h7, h8, h9⟩ | ⟨h7, -⟩⟩
    · cases F.inj _ _ h7
      have e : geo[p-1]? = some geo[p-1] := List.getElem?_eq_getElem (by omega)
      exact ⟨h3, h4, h8, h9, p, _, h1, e, h6, (F.on p r _ h1 e h3 h4).1 h5⟩
    · exact absurd h7 (F.ne r r).2.1
    · exact absurd h7 (F.ne r r').1
  · rintro ⟨h3, h4, h8, h9, p, P, h1, e, h6, h⟩
    have := (List.getElem?_eq_some_iff.1 e).1
    exact ⟨p, r, h1, by omega, h3, h4, (F.on p r P h1 e h3 h4).2 h, h6, .inl ⟨.inl rfl, h8, h9⟩⟩

omit [LinearOrder K] [IsStrictOrderedRing K] in
theorem SideFacts.boundary_iff (F : SideFacts g s dim geo side whole sides) {t : Item} : (.boundary, t) ∈ sides ↔ BoundarySet s dim geo t := by
  rw [F.mem _ _ (by simp)]
  constructor
  · rintro ⟨p, r, h1, h2, h3, h4, h5, h6, ⟨-, h8, h9⟩ | ⟨h7, -⟩⟩
    · subst h8
      exact ⟨h3, h4, h9, p, h1, h2, h6, fun hc => (F.free p _ h1 h2 h3 h4).1 hc h5⟩
    · exact absurd h7.symm (F.ne r r).2.2.1
  · rintro ⟨h3, h4, h9, p, h1, h2, h6, hc⟩
    refine ⟨p, t.item, h1, h2, h3, h4, ?_, h6, .inl ⟨.inr rfl, rfl, h9⟩⟩
    by_contra hn
    exact hc ((F.free p _ h1 h2 h3 h4).2 hn)

omit [LinearOrder K] [IsStrictOrderedRing K] in
theorem SideFacts.whole_iff (F : SideFacts g s dim geo side whole sides) (hd : 1 ≤ dim) {r : Nat} {t : Item} :
    (whole r, t) ∈ sides ↔ t.item = 0 ∧ t.idim = dim ∧ ∃ u, (side r, u) ∈ sides ∧ u.patch = t.patch := by
  rw [F.mem _ _ (F.ne r r).2.2.2.2]
  constructor
  · rintro ⟨p, r', h1, h2, h3, h4, h5, h6, ⟨h7 | h7, h8, h9⟩ | ⟨h7, h8, h9⟩⟩
    · exact absurd h7.symm (F.ne r' r).1
    · exact absurd h7 (F.ne r r).2.2.1
    · cases F.injW _ _ h7
      refine ⟨h8, by omega, ⟨t.patch, r, dim-1⟩, (F.mem _ _ (F.ne r r).2.2.2.1).2 ⟨p, r, h1, h2, h3, h4, h5, h6, .inl ⟨.inl rfl, rfl, rfl⟩⟩, rfl⟩
  · rintro ⟨h8, h9, u, hu, e⟩
    rw [F.mem _ _ (F.ne r r).2.2.2.1] at hu
    obtain ⟨p, r', h1, h2, h3, h4, h5, h6, ⟨h7 | h7, -, -⟩ | ⟨h7, -⟩⟩ := hu
    · cases F.inj _ _ h7
      exact ⟨p, r, h1, h2, h3, h4, h5, e ▸ h6, .inr ⟨rfl, h8, by omega⟩⟩
    · exact absurd h7 (F.ne r r).2.1
    · exact absurd h7 (F.ne r r').1

omit [LinearOrder K] [IsStrictOrderedRing K] in
theorem SideFacts.inner_iff (F : SideFacts g s dim geo side whole sides) (hd : 1 ≤ dim) (hs : s.nGl = geo.length) {used : List Nat}
    (hu : ∀ q, q ∈ used ↔ ∃ r t, 1 ≤ r ∧ r ≤ 2*dim ∧ (whole r, t) ∈ sides ∧ t.patch = q) {t : Item} :
    (.inner, t) ∈ innerPatches s geo.length dim used ↔ InnerSet s dim geo t := by
  rw [mem_inner hs]
  have key : ∀ p, 1 ≤ p → p ≤ geo.length → Here s p t.patch → (t.patch ∉ used ↔ ∀ r, 1 ≤ r → r ≤ 2*dim → ∃ q u, 1 ≤ u ∧ u ≤ 2*dim ∧ Coincide geo p r q u) := by
    intro p h1 h2 hh
    constructor
    · intro hn r h3 h4
      rw [F.free p r h1 h2 h3 h4]
      intro ha
      exact hn ((hu _).2 ⟨r, ⟨t.patch, 0, dim⟩, h3, h4, (F.mem _ _ (F.ne r r).2.2.2.2).2 ⟨p, r, h1, h2, h3, h4, ha, hh, .inr ⟨rfl, rfl, (by show dim = dim-1+1; omega)⟩⟩, rfl⟩)
    · intro hall hm
      obtain ⟨r, t', h3, h4, hm, e⟩ := (hu _).1 hm
      rw [F.mem _ _ (F.ne r r).2.2.2.2] at hm
      obtain ⟨p', r', h1', h2', h3', h4', ha, hh', ⟨h7 | h7, -, -⟩ | ⟨h7, -⟩⟩ := hm
      · exact (F.ne r' r).1 h7.symm
      · exact (F.ne r r).2.2.1 h7
      · cases F.injW _ _ h7
        rw [e] at hh'
        cases here_inj hh hh'
        exact (F.free p r h1 h2 h3 h4).1 (hall r h3 h4) ha
  constructor
  · rintro ⟨-, h1, h2, h3, p, h4, h5, h6⟩
    exact ⟨h1, h2, p, h4, h5, h6, (key p h4 h5 h6).1 h3⟩
  · rintro ⟨h1, h2, p, h4, h5, h6, h7⟩
    exact ⟨rfl, h1, h2, (key p h4 h5 h6).2 h7, p, h4, h5, h6⟩

/-- The sides of a volume model. -/
def facts_3D (hx : 1 ≤ g.nx) (hy : 1 ≤ g.ny) (hz : 1 ≤ g.nz) (hLx : g.Lx*g.scale ≠ 0) (hLy : g.Ly*g.scale ≠ 0) (hLz : g.Lz*g.scale ≠ 0) (hs : s.nGl = (g2_3D id g).length) :
    SideFacts g s 3 (g2_3D id g) .face .facePatches (faces3D g s) where
  At r p := ∃ i j k, i < g.nx ∧ j < g.ny ∧ k < g.nz ∧ p = ijk g.nx g.ny i j k ∧ atSide g.nx g.ny g.nz r i j k
  mem n t _ := by
    have hl := len_3D id g hx hy hz
    rw [mem_faces hx hy hz (hs.trans hl), hl]
    constructor
    · rintro ⟨i, j, k, r, hi, hj, hk, h1, h2, h3, h4, h5⟩
      exact ⟨_, r, (ijk_range hi hj hk).1, (ijk_range hi hj hk).2, h1, h2, ⟨i, j, k, hi, hj, hk, rfl, h3⟩, h4, h5⟩
    · rintro ⟨p, r, -, -, h1, h2, ⟨i, j, k, hi, hj, hk, rfl, h3⟩, h4, h5⟩
      exact ⟨i, j, k, r, hi, hj, hk, h1, h2, h3, h4, h5⟩
  on p r P h1 e h3 h4 := by
    obtain ⟨i, j, k, hi, hj, hk, rfl, rfl⟩ := place_3D hx hy hz h1 e
    rw [← side_3D hx hy hz hLx hLy hLz h3 h4]
    constructor
    · rintro ⟨i', j', k', hi', hj', hk', e, h⟩
      obtain ⟨rfl, rfl, rfl⟩ := ijk_inj hi hi' hj hj' e
      exact h
    · intro h
      exact ⟨i, j, k, hi, hj, hk, rfl, h⟩
  free p r h1 h2 h3 h4 := by
    rw [len_3D id g hx hy hz] at h2
    obtain ⟨i, j, k, hi, hj, hk, rfl⟩ := ijk_surj h1 h2
    rw [free_3D hx hy hz hLx hLy hLz h3 h4 hi hj hk, not_iff_not]
    constructor
    · intro h
      exact ⟨i, j, k, hi, hj, hk, rfl, h⟩
    · rintro ⟨i', j', k', hi', hj', hk', e, h⟩
      obtain ⟨rfl, rfl, rfl⟩ := ijk_inj hi hi' hj hj' e
      exact h
  inj _ _ h := Name.face.inj h
  injW _ _ h := Name.facePatches.inj h
  ne _ _ := by simp

theorem faces_names {n : Name} {t : Item} (h : (n, t) ∈ faces3D g s) : (∃ r, n = .face r) ∨ n = .boundary ∨ ∃ r, n = .facePatches r := by
  unfold faces3D at h
  simp only [List.mem_append, List.mem_flatMap] at h
  rcases h with (⟨_, -, _, -, _, -, h⟩ | ⟨_, -, _, -, _, -, h⟩) | ⟨_, -, _, -, _, -, h⟩ <;>
  · rw [mem_insertion] at h
    obtain ⟨-, -, ⟨h, -⟩ | ⟨h, -⟩⟩ := h
    · simp only [List.mem_cons, List.not_mem_nil, or_false] at h
      rcases h with h | h
      · exact .inl ⟨_, h⟩
      · exact .inr (.inl h)
    · exact .inr (.inr ⟨_, (Option.some.inj h).symm⟩)

theorem mem_boundary3D {l : Sets} {n : Name} {t : Item} : (n, t) ∈ boundary3D l ↔ ∃ d < 3, n = .boundaryDir d ∧ ((.face (2*d+1), t) ∈ l ∨ (.face (2*d+2), t) ∈ l) := by
  unfold boundary3D
  simp only [List.mem_flatMap, List.mem_map, List.mem_range, List.mem_range'_1, mem_setOf]
  constructor
  · rintro ⟨d, hd, i, ⟨h1, h2⟩, t', h, e⟩
    cases e
    refine ⟨d, hd, rfl, ?_⟩
    rcases (by omega : i = 2*d+1 ∨ i = 2*d+2) with rfl | rfl
    · exact .inl h
    · exact .inr h
  · rintro ⟨d, hd, rfl, h | h⟩
    · exact ⟨d, hd, 2*d+1, by omega, t, h, rfl⟩
    · exact ⟨d, hd, 2*d+2, by omega, t, h, rfl⟩

theorem vertices_names {n : Name} {t : Item} (h : (n, t) ∈ vertices3D g s) : (∃ r, n = .vertex r) ∨ n = .corners := by
  unfold vertices3D at h
  simp only [List.mem_flatMap] at h
  obtain ⟨_, -, _, -, _, -, h⟩ := h
  rw [mem_insertion] at h
  obtain ⟨-, -, ⟨h, -⟩ | ⟨h, -⟩⟩ := h
  · simp only [List.mem_cons, List.not_mem_nil, or_false] at h
    rcases h with h | h
    · exact .inl ⟨_, h⟩
    · exact .inr h
  · cases h

theorem edges_names {n : Name} {t : Item} (h : (n, t) ∈ edges3D g s) : (∃ r, n = .edge r) ∨ n = .frame := by
  unfold edges3D at h
  simp only [List.mem_append, List.mem_flatMap] at h
  rcases h with (⟨_, -, _, -, _, -, h⟩ | ⟨_, -, _, -, _, -, h⟩) | ⟨_, -, _, -, _, -, h⟩ <;>
  · rw [mem_insertion] at h
    obtain ⟨-, -, ⟨h, -⟩ | ⟨h, -⟩⟩ := h
    · simp only [List.mem_cons, List.not_mem_nil, or_false] at h
      rcases h with h | h
      · exact .inl ⟨_, h⟩
      · exact .inr h
    · cases h

theorem inner_names {m pd : Nat} {used : List Nat} {n : Name} {t : Item} (h : (n, t) ∈ innerPatches s m pd used) : n = .inner := by
  unfold innerPatches at h
  simp only [List.mem_flatMap] at h
  obtain ⟨p, -, h⟩ := h
  split at h
  · simp only [List.mem_singleton] at h
    exact (Prod.mk.inj h).1
  · cases h

/-- The sets of a volume model. -/
theorem C79_sets_volume (hx : 1 ≤ g.nx) (hy : 1 ≤ g.ny) (hz : 1 ≤ g.nz) (hLx : g.Lx*g.scale ≠ 0) (hLy : g.Ly*g.scale ≠ 0) (hLz : g.Lz*g.scale ≠ 0)
    (hs : s.nGl = (g2_3D id g).length) (hset : g.sets = true) :
    ∃ S, createTopologySets3D g s = some S ∧ ∀ t : Item,
      (∀ r, (.face r, t) ∈ S ↔ SideSet g s 3 (g2_3D id g) r t) ∧
      (∀ r, (.facePatches r, t) ∈ S ↔ t.item = 0 ∧ t.idim = 3 ∧ ∃ u, (.face r, u) ∈ S ∧ u.patch = t.patch) ∧
      ((.boundary, t) ∈ S ↔ BoundarySet s 3 (g2_3D id g) t) ∧
      (∀ d, (.boundaryDir d, t) ∈ S ↔ d < 3 ∧ ((.face (2*d+1), t) ∈ S ∨ (.face (2*d+2), t) ∈ S)) ∧
      (∀ v, (.vertex v, t) ∈ S ↔ VertexSet g s 3 (g2_3D id g) v t) ∧
      ((.corners, t) ∈ S ↔ ∃ v, (.vertex v, t) ∈ S) ∧
      ((.inner, t) ∈ S ↔ InnerSet s 3 (g2_3D id g) t) := by
  have hl := len_3D id g hx hy hz
  have F := facts_3D (s := s) hx hy hz hLx hLy hLz hs
  have hf : ∀ {n t}, ((∃ r, n = Name.face r) ∨ n = .boundary ∨ ∃ r, n = Name.facePatches r) → ∀ {u}, ((n, t) ∈ faces3D g s ++ boundary3D (faces3D g s) ++ vertices3D g s ++ edges3D g s ++ innerPatches s (g.nx*g.ny*g.nz) 3 u ↔ (n, t) ∈ faces3D g s) := by
    intro n t hn u
    simp only [List.mem_append]
    constructor
    · rintro ((((h | h) | h) | h) | h)
      · exact h
      · obtain ⟨d, -, rfl, -⟩ := mem_boundary3D.1 h; simp at hn
      · rcases vertices_names h with ⟨r, rfl⟩ | rfl <;> simp at hn
      · rcases edges_names h with ⟨r, rfl⟩ | rfl <;> simp at hn
      · cases inner_names h; simp at hn
    · intro h; exact .inl (.inl (.inl (.inl h)))
  have hfl : ∀ {r t}, ((.facePatches r, t) ∈ faces3D g s ++ boundary3D (faces3D g s) ++ vertices3D g s ++ edges3D g s ↔ (.facePatches r, t) ∈ faces3D g s) := by
    intro r t
    simp only [List.mem_append]
    constructor
    · rintro (((h | h) | h) | h)
      · exact h
      · obtain ⟨d, -, e, -⟩ := mem_boundary3D.1 h; cases e
      · rcases vertices_names h with ⟨r, e⟩ | e <;> cases e
      · rcases edges_names h with ⟨r, e⟩ | e <;> cases e
    · intro h; exact .inl (.inl (.inl h))
  unfold createTopologySets3D
  rw [if_pos hset]
  refine ⟨_, rfl, fun t => ?_⟩
  have hv : ∀ {n : Name} {u}, ((∃ r, n = Name.vertex r) ∨ n = .corners) → ((n, t) ∈ faces3D g s ++ boundary3D (faces3D g s) ++ vertices3D g s ++ edges3D g s ++ innerPatches s (g.nx*g.ny*g.nz) 3 u ↔ (n, t) ∈ vertices3D g s) := by
    intro n u hn
    simp only [List.mem_append]
    constructor
    · rintro ((((h | h) | h) | h) | h)
      · rcases faces_names h with ⟨r, rfl⟩ | rfl | ⟨r, rfl⟩ <;> simp at hn
      · obtain ⟨d, -, rfl, -⟩ := mem_boundary3D.1 h; simp at hn
      · exact h
      · rcases edges_names h with ⟨r, rfl⟩ | rfl <;> simp at hn
      · cases inner_names h; simp at hn
    · intro h; exact .inl (.inl (.inr h))
  refine ⟨fun r => ?_, fun r => ?_, ?_, fun d => ?_, fun v => ?_, ?_, ?_⟩
  · rw [hf (.inl ⟨r, rfl⟩)]; exact F.side_iff
  · rw [hf (.inr (.inr ⟨r, rfl⟩)), F.whole_iff (by omega)]
    simp only [hf (.inl ⟨r, rfl⟩)]
  · rw [hf (.inr (.inl rfl))]; exact F.boundary_iff
  · rw [hf (.inl ⟨_, rfl⟩), hf (.inl ⟨_, rfl⟩)]
    simp only [List.mem_append]
    constructor
    · rintro ((((h | h) | h) | h) | h)
      · rcases faces_names h with ⟨r, e⟩ | e | ⟨r, e⟩ <;> cases e
      · obtain ⟨d', h1, e, h2⟩ := mem_boundary3D.1 h
        cases e
        exact ⟨h1, h2⟩
      · rcases vertices_names h with ⟨r, e⟩ | e <;> cases e
      · rcases edges_names h with ⟨r, e⟩ | e <;> cases e
      · cases inner_names h
    · rintro ⟨h1, h2⟩
      exact .inl (.inl (.inl (.inr (mem_boundary3D.2 ⟨d, h1, rfl, h2⟩))))
  · rw [hv (.inl ⟨v, rfl⟩), mem_vertices3D hx hy hz (hs.trans hl)]
    constructor
    · rintro ⟨i, j, k, v', hi, hj, hk, h1, h2, h3, h4, h5 | h5, h6, h7⟩
      · cases h5
        exact ⟨h1, h2, h6, h7, _, _, (ijk_range hi hj hk).1, get_3D id g hi hj hk, h4, (corner_3D hx hy hz hLx hLy hLz h1 h2).1 h3⟩
      · cases h5
    · rintro ⟨h1, h2, h6, h7, p, P, h8, e, h4, h3⟩
      obtain ⟨i, j, k, hi, hj, hk, rfl, rfl⟩ := place_3D hx hy hz h8 e
      exact ⟨i, j, k, v, hi, hj, hk, h1, h2, (corner_3D hx hy hz hLx hLy hLz h1 h2).2 h3, h4, .inl rfl, h6, h7⟩
  · simp only [hv (.inr rfl), hv (.inl ⟨_, rfl⟩), mem_vertices3D hx hy hz (hs.trans hl)]
    constructor
    · rintro ⟨i, j, k, v, hi, hj, hk, h1, h2, h3, h4, -, h6⟩
      exact ⟨v, i, j, k, v, hi, hj, hk, h1, h2, h3, h4, .inl rfl, h6⟩
    · rintro ⟨v', i, j, k, v, hi, hj, hk, h1, h2, h3, h4, -, h6⟩
      exact ⟨i, j, k, v, hi, hj, hk, h1, h2, h3, h4, .inr trivial, h6⟩
  · rw [← F.inner_iff (by omega) hs, hl]
    · simp only [List.mem_append]
      constructor
      · rintro ((((h | h) | h) | h) | h)
        · rcases faces_names h with ⟨r, e⟩ | e | ⟨r, e⟩ <;> cases e
        · obtain ⟨d', h1, e, h2⟩ := mem_boundary3D.1 h; cases e
        · rcases vertices_names h with ⟨r, e⟩ | e <;> cases e
        · rcases edges_names h with ⟨r, e⟩ | e <;> cases e
        · exact h
      · intro h; exact .inr h
    · intro q
      simp only [List.mem_flatMap, List.mem_range'_1, List.mem_map, mem_setOf, hfl]
      constructor
      · rintro ⟨r, ⟨h1, h2⟩, t, h3, h4⟩
        exact ⟨r, t, h1, by omega, h3, h4⟩
      · rintro ⟨r, t, h1, h2, h3, h4⟩
        exact ⟨r, ⟨h1, by omega⟩, t, h3, h4⟩

end IFEM.PatchGen
