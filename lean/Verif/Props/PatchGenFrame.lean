import Verif.Props.PatchGenSets2

/-!
# C79: the topology sets of curve models, and the edge sets of volume models

The sets `Edge1` to `Edge12` and `Frame` of a volume model number the edges otherwise than the patches do (`C79_frame_wrong`).
-/
namespace IFEM.PatchGen
open IFEM.PatchGen.Spec

section
variable {K : Type} {g : Gen K} {s : Sim}

/-- The place `(i, j, k)` is at edge `r` of the generator. -/
def atEdge (nx ny nz r i j k : Nat) : Prop :=
  if r ≤ 4 then i = (r-1) % 2 * (nx-1) ∧ k = (r-1)/2 * (nz-1)
  else if r ≤ 8 then i = (r-5) % 2 * (nx-1) ∧ j = (r-5)/2 * (ny-1)
  else j = (r-9) % 2 * (ny-1) ∧ k = (r-9)/2 * (nz-1)

theorem mem_edges3D (hx : 1 ≤ g.nx) (hy : 1 ≤ g.ny) (hz : 1 ≤ g.nz) (hs : s.nGl = g.nx*g.ny*g.nz) {n : Name} {t : Item} :
    (n, t) ∈ edges3D g s ↔ ∃ i j k r, i < g.nx ∧ j < g.ny ∧ k < g.nz ∧ 1 ≤ r ∧ r ≤ 12 ∧ atEdge g.nx g.ny g.nz r i j k ∧ Here s (ijk g.nx g.ny i j k) t.patch ∧
      (n = .edge r ∨ n = .frame) ∧ t.item = r ∧ t.idim = 1 := by
  have hh : ∀ {i j k}, i < g.nx → j < g.ny → k < g.nz → ((0 < t.patch ∧ asSize (localIndex s (ijk g.nx g.ny i j k)) = t.patch) ↔ Here s (ijk g.nx g.ny i j k) t.patch) :=
    fun hi hj hk => here_iff (ijk_range hi hj hk).1 (by rw [hs]; exact (ijk_range hi hj hk).2)
  have one : ∀ {i j k r : Nat}, i < g.nx → j < g.ny → k < g.nz →
      ((n, t) ∈ insertion s [.edge r, .frame] none 0 ⟨ijk g.nx g.ny i j k, r, 1⟩ ↔ Here s (ijk g.nx g.ny i j k) t.patch ∧ (n = .edge r ∨ n = .frame) ∧ t.item = r ∧ t.idim = 1) := by
    intro i j k r hi hj hk
    rw [mem_insertion, ← and_assoc, hh hi hj hk]
    simp
  have ends : ∀ a m : Nat, a < 2 → 1 ≤ m → a*(m-1) < m := by
    intro a m ha hm
    interval_cases a <;> omega
  unfold edges3D
  simp only [List.mem_append, List.mem_flatMap, List.mem_range]
  constructor
  · rintro ((⟨k, hk, i, hi, j, hj, h⟩ | ⟨j, hj, i, hi, k, hk, h⟩) | ⟨k, hk, j, hj, i, hi, h⟩)
    · rw [one (ends i _ hi hx) hj (ends k _ hk hz)] at h
      refine ⟨_, _, _, _, ends i _ hi hx, hj, ends k _ hk hz, by omega, by omega, ?_, h⟩
      unfold atEdge
      rw [if_pos (by omega), show (1+i+2*k-1) % 2 = i by omega, show (1+i+2*k-1) / 2 = k by omega]
      exact ⟨rfl, rfl⟩
    · rw [one (ends i _ hi hx) (ends j _ hj hy) hk] at h
      refine ⟨_, _, _, _, ends i _ hi hx, ends j _ hj hy, hk, by omega, by omega, ?_, h⟩
      unfold atEdge
      rw [if_neg (by omega), if_pos (by omega), show (5+i+2*j-5) % 2 = i by omega, show (5+i+2*j-5) / 2 = j by omega]
      exact ⟨rfl, rfl⟩
    · rw [one hi (ends j _ hj hy) (ends k _ hk hz)] at h
      refine ⟨_, _, _, _, hi, ends j _ hj hy, ends k _ hk hz, by omega, by omega, ?_, h⟩
      unfold atEdge
      rw [if_neg (by omega), if_neg (by omega), show (9+j+2*k-9) % 2 = j by omega, show (9+j+2*k-9) / 2 = k by omega]
      exact ⟨rfl, rfl⟩
  · rintro ⟨i, j, k, r, hi, hj, hk, h1, h2, ha, h⟩
    rw [← one hi hj hk] at h
    unfold atEdge at ha
    split at ha
    · obtain ⟨rfl, rfl⟩ := ha
      refine .inl (.inl ⟨(r-1)/2, by omega, (r-1) % 2, by omega, j, hj, ?_⟩)
      rw [show 1+(r-1) % 2+2*((r-1)/2) = r by omega]
      exact h
    · split at ha
      · obtain ⟨rfl, rfl⟩ := ha
        refine .inl (.inr ⟨(r-5)/2, by omega, (r-5) % 2, by omega, k, hk, ?_⟩)
        rw [show 5+(r-5) % 2+2*((r-5)/2) = r by omega]
        exact h
      · obtain ⟨rfl, rfl⟩ := ha
        refine .inr ⟨(r-9)/2, by omega, (r-9) % 2, by omega, i, hi, ?_⟩
        rw [show 9+(r-9) % 2+2*((r-9)/2) = r by omega]
        exact h

/-- In the sets of a volume model, those of the edges are what the loop over the edges inserts. -/
theorem edges_only {K : Type} [Field K] [LinearOrder K] [IsStrictOrderedRing K] {g : Gen K} {s : Sim} (hset : g.sets = true) : ∃ S, createTopologySets3D g s = some S ∧ ∀ n t, ((∃ r, n = Name.edge r) ∨ n = .frame) → ((n, t) ∈ S ↔ (n, t) ∈ edges3D g s) := by
  unfold createTopologySets3D
  rw [if_pos hset]
  refine ⟨_, rfl, fun n t hn => ?_⟩
  simp only [List.mem_append]
  constructor
  · rintro ((((h | h) | h) | h) | h)
    · rcases faces_names h with ⟨r, rfl⟩ | rfl | ⟨r, rfl⟩ <;> simp at hn
    · obtain ⟨d, -, rfl, -⟩ := mem_boundary3D.1 h; simp at hn
    · rcases vertices_names h with ⟨r, rfl⟩ | rfl <;> simp at hn
    · exact h
    · cases inner_names h; simp at hn
  · intro h; exact .inl (.inr h)

end

variable {K : Type} [Field K] [LinearOrder K] [IsStrictOrderedRing K] {g : Gen K} {s : Sim}

theorem along {x L a : K} {n i : Nat} : x + ((i : K) + a)*(L/n) = x + ((i + a)/n)*L := by ring

theorem edge_3D (hx : 1 ≤ g.nx) (hy : 1 ≤ g.ny) (hz : 1 ≤ g.nz) (hLx : g.Lx*g.scale ≠ 0) (hLy : g.Ly*g.scale ≠ 0) (hLz : g.Lz*g.scale ≠ 0) {r i j k : Nat} (h1 : 1 ≤ r) (h2 : r ≤ 12) :
    atEdge g.nx g.ny g.nz r i j k ↔ ∀ a : K, ∃ b : K, onPatch (patch3 id g.X0 (g.Lx*g.scale/g.nx) (g.Ly*g.scale/g.ny) (g.Lz*g.scale/g.nz) i j k) (genEdge r a) = boxPoint g (genEdge r b) := by
  simp only [point_3D]
  unfold atEdge genEdge boxPoint
  by_cases c1 : r ≤ 4
  · simp only [if_pos c1, Prod.mk.injEq]
    rw [← end1 (x := g.X0.1) hLx hx (by omega : (r-1) % 2 < 2), ← end1 (x := g.X0.2.2) hLz hz (by omega : (r-1)/2 < 2)]
    constructor
    · rintro ⟨e1, e2⟩ a
      exact ⟨_, e1, along, e2⟩
    · intro h
      obtain ⟨b, e1, -, e2⟩ := h 0
      exact ⟨e1, e2⟩
  · by_cases c2 : r ≤ 8
    · simp only [if_neg c1, if_pos c2, Prod.mk.injEq]
      rw [← end1 (x := g.X0.1) hLx hx (by omega : (r-5) % 2 < 2), ← end1 (x := g.X0.2.1) hLy hy (by omega : (r-5)/2 < 2)]
      constructor
      · rintro ⟨e1, e2⟩ a
        exact ⟨_, e1, e2, along⟩
      · intro h
        obtain ⟨b, e1, e2, -⟩ := h 0
        exact ⟨e1, e2⟩
    · simp only [if_neg c1, if_neg c2, Prod.mk.injEq]
      rw [← end1 (x := g.X0.2.1) hLy hy (by omega : (r-9) % 2 < 2), ← end1 (x := g.X0.2.2) hLz hz (by omega : (r-9)/2 < 2)]
      constructor
      · rintro ⟨e1, e2⟩ a
        exact ⟨_, along, e1, e2⟩
      · intro h
        obtain ⟨b, -, e1, e2⟩ := h 0
        exact ⟨e1, e2⟩

/-- In the numbering of the generator, the sets of the edges of a volume model are the edges of the domain. -/
theorem C79_sets_edges (hx : 1 ≤ g.nx) (hy : 1 ≤ g.ny) (hz : 1 ≤ g.nz) (hLx : g.Lx*g.scale ≠ 0) (hLy : g.Ly*g.scale ≠ 0) (hLz : g.Lz*g.scale ≠ 0)
    (hs : s.nGl = (g2_3D id g).length) (hset : g.sets = true) :
    ∃ S, createTopologySets3D g s = some S ∧ ∀ t : Item,
      (∀ r, (.edge r, t) ∈ S ↔ EdgeSet g s genEdge (g2_3D id g) r t) ∧ ((.frame, t) ∈ S ↔ ∃ r, (.edge r, t) ∈ S) := by
  have hl := len_3D id g hx hy hz
  obtain ⟨S, hS, hm⟩ := edges_only (g := g) (s := s) hset
  refine ⟨S, hS, fun t => ⟨fun r => ?_, ?_⟩⟩
  · rw [hm _ t (.inl ⟨r, rfl⟩), mem_edges3D hx hy hz (hs.trans hl)]
    constructor
    · rintro ⟨i, j, k, r', hi, hj, hk, h1, h2, h3, h4, h5 | h5, h6, h7⟩
      · cases h5
        exact ⟨h1, h2, h6, h7, _, _, (ijk_range hi hj hk).1, get_3D id g hi hj hk, h4, (edge_3D hx hy hz hLx hLy hLz h1 h2).1 h3⟩
      · cases h5
    · rintro ⟨h1, h2, h6, h7, p, P, h8, e, h4, h3⟩
      obtain ⟨i, j, k, hi, hj, hk, rfl, rfl⟩ := place_3D hx hy hz h8 e
      exact ⟨i, j, k, r, hi, hj, hk, h1, h2, (edge_3D hx hy hz hLx hLy hLz h1 h2).2 h3, h4, .inl rfl, h6, h7⟩
  · simp only [hm _ t (.inr rfl), hm _ t (.inl ⟨_, rfl⟩), mem_edges3D hx hy hz (hs.trans hl)]
    constructor
    · rintro ⟨i, j, k, r, hi, hj, hk, h1, h2, h3, h4, -, h6⟩
      exact ⟨r, i, j, k, r, hi, hj, hk, h1, h2, h3, h4, .inl rfl, h6⟩
    · rintro ⟨r', i, j, k, r, hi, hj, hk, h1, h2, h3, h4, -, h6⟩
      exact ⟨i, j, k, r, hi, hj, hk, h1, h2, h3, h4, .inr trivial, h6⟩

theorem inner1 {x L : K} {n : Nat} (hL : L ≠ 0) (hn : 1 < n) : x + (((1 : Nat) : K) + 0)*(L/n) ≠ x ∧ x + (((1 : Nat) : K) + 0)*(L/n) ≠ x + L := by
  constructor
  · intro h
    have := (low1 (i := 1) hL (by omega)).1 h
    omega
  · intro h
    have e : x + (((0 : Nat) : K) + 1)*(L/n) = x + L := by rw [← h]; push_cast; ring
    have := (high1 (i := 0) hL (by omega)).1 e
    omega

theorem half1 {x L : K} {n : Nat} (hL : L ≠ 0) (hn : 1 ≤ n) : x + (((0 : Nat) : K) + 1/2)*(L/n) ≠ x ∧ x + (((0 : Nat) : K) + 1/2)*(L/n) ≠ x + L := by
  have n0 : (n : K) ≠ 0 := by exact_mod_cast (by omega : n ≠ 0)
  constructor
  · intro h
    have h' : (((0 : Nat) : K) + 1/2)*(L/n) = 0 := by linear_combination h
    have : L/n = 0 := by push_cast at h'; linear_combination 2*h'
    exact step_ne hL hn this
  · intro h
    have h' : L/n = 2*L := by push_cast at h; linear_combination 2*h
    have h2 : L = 2*L*n := by rw [div_eq_iff n0] at h'; exact h'
    have h3 : L*(1 - 2*n) = 0 := by linear_combination h2
    rcases mul_eq_zero.1 h3 with h | h
    · exact hL h
    · have h4 : (2 : K)*n = 1 := by linear_combination -h
      have h5 : 2*n = 1 := by exact_mod_cast h4
      omega

/-- A point that is on no side in two of the three directions is not on the frame. -/
theorem off_frame {x : Pt K} (h : ((x.1 ≠ g.X0.1 ∧ x.1 ≠ g.X0.1 + g.Lx*g.scale) ∧ (x.2.1 ≠ g.X0.2.1 ∧ x.2.1 ≠ g.X0.2.1 + g.Ly*g.scale)) ∨
    ((x.1 ≠ g.X0.1 ∧ x.1 ≠ g.X0.1 + g.Lx*g.scale) ∧ (x.2.2 ≠ g.X0.2.2 ∧ x.2.2 ≠ g.X0.2.2 + g.Lz*g.scale)) ∨
    ((x.2.1 ≠ g.X0.2.1 ∧ x.2.1 ≠ g.X0.2.1 + g.Ly*g.scale) ∧ (x.2.2 ≠ g.X0.2.2 ∧ x.2.2 ≠ g.X0.2.2 + g.Lz*g.scale))) : ¬ OnFrame g x := by
  rintro ⟨r, r', h1, h2, h3, h4, hne, ha, hb⟩
  interval_cases r <;> interval_cases r' <;> first | (exact absurd rfl hne) | (simp only [OnDomainSide] at ha hb; tauto)

/-- **Counterexample.**  The patches number their edges otherwise: in every volume model with more than one patch, on a process with all patches, the set `Frame` names the edge of a patch
that is not on the edges of the domain. -/
theorem C79_frame_wrong (hx : 1 ≤ g.nx) (hy : 1 ≤ g.ny) (hz : 1 ≤ g.nz) (hLx : g.Lx*g.scale ≠ 0) (hLy : g.Ly*g.scale ≠ 0) (hLz : g.Lz*g.scale ≠ 0)
    (hs : s.nGl = (g2_3D id g).length) (hset : g.sets = true) (hall : ∀ p, 1 ≤ p → p ≤ s.nGl → ∃ q, Here s p q) (hmany : 1 < (g2_3D id g).length) :
    ∃ S, createTopologySets3D g s = some S ∧ ∃ t p P, (.frame, t) ∈ S ∧ 1 ≤ p ∧ (g2_3D id g)[p-1]? = some P ∧ Here s p t.patch ∧ t.idim = 1 ∧ 1 ≤ t.item ∧ t.item ≤ 12 ∧
      ∃ a : K, 0 < a ∧ a < 1 ∧ ¬ OnFrame g (onPatch P (patchEdge t.item a)) := by
  have hl := len_3D id g hx hy hz
  obtain ⟨S, hS, hm⟩ := edges_only (g := g) (s := s) hset
  refine ⟨S, hS, ?_⟩
  have pos : (0 : K) < 1/2 := by positivity
  have less : (1/2 : K) < 1 := by linarith [pos, (by ring : (1/2 : K) + 1/2 = 1)]
  have mk : ∀ i j k r, i < g.nx → j < g.ny → k < g.nz → 1 ≤ r → r ≤ 12 → atEdge g.nx g.ny g.nz r i j k →
      ¬ OnFrame g (onPatch (patch3 id g.X0 (g.Lx*g.scale/g.nx) (g.Ly*g.scale/g.ny) (g.Lz*g.scale/g.nz) i j k) (patchEdge r (1/2))) →
      ∃ t p P, (.frame, t) ∈ S ∧ 1 ≤ p ∧ (g2_3D id g)[p-1]? = some P ∧ Here s p t.patch ∧ t.idim = 1 ∧ 1 ≤ t.item ∧ t.item ≤ 12 ∧
        ∃ a : K, 0 < a ∧ a < 1 ∧ ¬ OnFrame g (onPatch P (patchEdge t.item a)) := by
    intro i j k r hi hj hk h1 h2 ha hno
    obtain ⟨r1, r2⟩ := ijk_range hi hj hk
    obtain ⟨q, hq⟩ := hall _ r1 (by rw [hs, hl]; exact r2)
    exact ⟨⟨q, r, 1⟩, _, _, (hm _ _ (.inr rfl)).2 ((mem_edges3D hx hy hz (hs.trans hl)).2 ⟨i, j, k, r, hi, hj, hk, h1, h2, ha, hq, .inr rfl, rfl, rfl⟩), r1, get_3D id g hi hj hk, hq, rfl, h1, h2,
      1/2, pos, less, hno⟩
  rw [hl] at hmany
  have hsome : 1 < g.nx ∨ 1 < g.ny ∨ 1 < g.nz := by
    by_contra hc
    rw [show g.nx = 1 by omega, show g.ny = 1 by omega, show g.nz = 1 by omega] at hmany
    omega
  rcases hsome with h | h | h
  · refine mk 1 0 0 9 h hy hz (by omega) (by omega) (by simp [atEdge]) (off_frame ?_)
    rw [point_3D]
    right; left
    have := inner1 (x := g.X0.1) hLx h
    have := half1 (x := g.X0.2.2) hLz hz
    simp only [patchEdge, show ¬ 9 ≤ 4 by omega, show ¬ 9 ≤ 8 by omega, if_false, Nat.sub_self, Nat.zero_mod, Nat.zero_div, Nat.cast_zero] at *
    tauto
  · refine mk 0 1 0 1 hx h hz (by omega) (by omega) (by simp [atEdge]) (off_frame ?_)
    rw [point_3D]
    left
    have := inner1 (x := g.X0.2.1) hLy h
    have := half1 (x := g.X0.1) hLx hx
    simp only [patchEdge, show 1 ≤ 4 by omega, if_true, Nat.sub_self, Nat.zero_mod, Nat.zero_div, Nat.cast_zero] at *
    tauto
  · refine mk 0 0 1 5 hx hy h (by omega) (by omega) (by simp [atEdge]) (off_frame ?_)
    rw [point_3D]
    right; right
    have := inner1 (x := g.X0.2.2) hLz h
    have := half1 (x := g.X0.2.1) hLy hy
    simp only [patchEdge, show ¬ 5 ≤ 4 by omega, show 5 ≤ 8 by omega, if_true, if_false, Nat.sub_self, Nat.zero_mod, Nat.zero_div, Nat.cast_zero] at *
    tauto

/-! ## Curves -/

/-- The sets of a curve model. -/
theorem C79_sets_curve (hx : 1 ≤ g.nx) (hLx : g.Lx*g.scale ≠ 0) (hs : s.nGl = (g2_1D id g).length) (hset : g.sets = true) :
    ∃ S, createTopologySets1D g s = some S ∧ ∀ t : Item,
      (∀ r, (.vertex r, t) ∈ S ↔ SideSet g s 1 (g2_1D id g) r t) ∧ ((.boundary, t) ∈ S ↔ BoundarySet s 1 (g2_1D id g) t) ∧
      (∀ n, (n, t) ∈ S → n = .boundary ∨ ∃ r, n = .vertex r) := by
  have hl := len_1D id g hx
  have hmem : ∀ {n : Name} {t : Item}, (n, t) ∈ insertion s [.vertex 1, .boundary] none 0 ⟨1, 1, 0⟩ ++ insertion s [.vertex 2, .boundary] none 0 ⟨g.nx, 2, 0⟩ ↔
      ∃ i r, i < g.nx ∧ (r = 1 ∧ i = 0 ∨ r = 2 ∧ i = g.nx-1) ∧ Here s (i+1) t.patch ∧ (n = .vertex r ∨ n = .boundary) ∧ t.item = r ∧ t.idim = 0 := by
    intro n t
    rw [List.mem_append, mem_insertion, mem_insertion, ← and_assoc, ← and_assoc (a := 0 < t.patch) (b := asSize (localIndex s g.nx) = t.patch)]
    simp only
    rw [here_iff (p := 1) (by omega) (by rw [hs, hl]; exact hx), here_iff hx (by rw [hs, hl])]
    constructor
    · rintro (⟨h, h' | ⟨h', -⟩⟩ | ⟨h, h' | ⟨h', -⟩⟩)
      · exact ⟨0, 1, hx, .inl ⟨rfl, rfl⟩, h, by simpa using h'⟩
      · cases h'
      · refine ⟨g.nx-1, 2, by omega, .inr ⟨rfl, rfl⟩, ?_, by simpa using h'⟩
        rw [show g.nx-1+1 = g.nx by omega]; exact h
      · cases h'
    · rintro ⟨i, r, hi, ⟨rfl, rfl⟩ | ⟨rfl, rfl⟩, h, h'⟩
      · exact .inl ⟨h, .inl (by simpa using h')⟩
      · rw [show g.nx-1+1 = g.nx by omega] at h
        exact .inr ⟨h, .inl (by simpa using h')⟩
  have on : ∀ {i r}, 1 ≤ r → r ≤ 2*1 → ((r = 1 ∧ i = 0 ∨ r = 2 ∧ i = g.nx-1) ↔
      ∀ a b : K, OnDomainSide g r (onPatch [(id (g.X0.1 + i*(g.Lx*g.scale/g.nx)), 0, 0), (id (g.X0.1 + (i+1)*(g.Lx*g.scale/g.nx)), 0, 0)] (onSide r a b))) := by
    intro i r h1 h2
    simp only [point_1D]
    interval_cases r
    · simp only [OnDomainSide, onSide, low1 hLx hx]; simp
    · simp only [OnDomainSide, onSide, high1 hLx hx]; simp
  have free : ∀ {i r}, i < g.nx → 1 ≤ r → r ≤ 2*1 → ((∃ q u, 1 ≤ u ∧ u ≤ 2*1 ∧ Coincide (g2_1D id g) (i+1) r q u) ↔ ¬ (r = 1 ∧ i = 0 ∨ r = 2 ∧ i = g.nx-1)) := by
    intro i r hi h1 h2
    constructor
    · rintro ⟨q, u, hu1, hu2, hne, hp, hq, P, Q, eP, eQ, hh⟩ ha
      rw [get_1D id g hi] at eP
      cases eP
      obtain ⟨i', hi', rfl, rfl⟩ := place_1D hx hq eQ
      rcases co_1D (step_ne hLx hx) ⟨h1, by omega⟩ ⟨hu1, by omega⟩ hh with ⟨rfl, rfl⟩ | ⟨rfl, rfl, rfl⟩ | ⟨rfl, rfl, rfl⟩
      · exact hne rfl
      · omega
      · omega
    · intro ha
      interval_cases r
      · refine ⟨i-1+1, 2, by omega, by omega, by simp, by omega, by omega, _, _, get_1D id g hi, get_1D id g (i := i-1) (by omega), fun a b => ?_⟩
        rw [point_1D, point_1D]
        simp only [onSide]
        push_cast [show 1 ≤ i by omega]
        simp
      · refine ⟨i+1+1, 1, by omega, by omega, by simp, by omega, by omega, _, _, get_1D id g hi, get_1D id g (i := i+1) (by omega), fun a b => ?_⟩
        rw [point_1D, point_1D]
        simp only [onSide]
        push_cast
        simp
  unfold createTopologySets1D
  rw [if_pos hset]
  refine ⟨_, rfl, fun t => ⟨fun r => ?_, ?_, ?_⟩⟩
  · rw [hmem]
    constructor
    · rintro ⟨i, r', hi, h, h4, h5 | h5, h6, h7⟩
      · cases h5
        have h1 : 1 ≤ r ∧ r ≤ 2*1 := by omega
        exact ⟨h1.1, h1.2, h6, h7, _, _, by omega, get_1D id g hi, h4, (on h1.1 h1.2).1 h⟩
      · cases h5
    · rintro ⟨h1, h2, h6, h7, p, P, h8, e, h4, h3⟩
      obtain ⟨i, hi, rfl, rfl⟩ := place_1D hx h8 e
      exact ⟨i, r, hi, (on h1 h2).2 h3, h4, .inl rfl, h6, h7⟩
  · rw [hmem]
    constructor
    · rintro ⟨i, r, hi, h, h4, -, h6, h7⟩
      have h1 : 1 ≤ t.item ∧ t.item ≤ 2*1 := by omega
      refine ⟨h1.1, h1.2, h7, i+1, by omega, by omega, h4, ?_⟩
      rw [free hi h1.1 h1.2, h6]
      exact fun hn => hn h
    · rintro ⟨h1, h2, h7, p, h8, h9, h4, hc⟩
      obtain ⟨i, rfl⟩ : ∃ i, p = i+1 := ⟨p-1, by omega⟩
      rw [free (by omega) h1 h2, not_not] at hc
      exact ⟨i, t.item, by omega, hc, h4, .inr rfl, rfl, h7⟩
  · intro n h
    obtain ⟨i, r, -, -, -, h | h, -⟩ := hmem.1 h
    · exact .inr ⟨r, h⟩
    · exact .inl h

omit [LinearOrder K] [IsStrictOrderedRing K] [Field K] in
/-- Without the option there are no sets. -/
theorem C79_no_sets (h : g.sets = false) : createTopologySets1D g s = none ∧ createTopologySets2D g s = none ∧ createTopologySets3D g s = none := by
  simp [createTopologySets1D, createTopologySets2D, createTopologySets3D, h]

/-! ## Examples -/

/-- Two patches along `y`, on a serial run. -/
def frameDemo : Gen Rat := { nx := 1, ny := 2, nz := 1, sets := true, scale := 1, Lx := 1, Ly := 1, Lz := 1, X0 := (0, 0, 0) }
def frameSim : Sim := { nGl := 2, myPatches := [], nProc := 1, fem := true, joins := fun _ _ => true }

example : frameSim.nGl = (g2_3D id frameDemo).length ∧ 1 < (g2_3D id frameDemo).length ∧ (∀ p, 1 ≤ p → p ≤ frameSim.nGl → ∃ q, Here frameSim p q) ∧ frameDemo.Lx*frameDemo.scale ≠ 0 ∧
    frameDemo.Ly*frameDemo.scale ≠ 0 ∧ frameDemo.Lz*frameDemo.scale ≠ 0 := by
  refine ⟨by decide +kernel, by decide +kernel, fun p h1 h2 => ⟨p, h1, ?_⟩, by decide +kernel, by decide +kernel, by decide +kernel⟩
  unfold localIndex
  have : p ≤ 2 := h2
  simp [frameSim]
  omega

/-- The set names edge 1 of both patches: of the second one that is the line between the two patches on the bottom face. -/
example : (createTopologySets3D frameDemo frameSim).map (fun S => setOf S (.edge 1)) = some [⟨1, 1, 1⟩, ⟨2, 1, 1⟩] ∧
    ∀ a : Rat, onPatch (((g2_3D id frameDemo)[1]?).getD []) (patchEdge 1 a) = (a, 1/2, 0) := by
  refine ⟨by decide +kernel, fun a => ?_⟩
  have e : (g2_3D id frameDemo)[1]? = some (patch3 id (0, 0, 0) 1 (1/2) 1 0 1 0) := by decide +kernel
  rw [e, Option.getD_some, point_3D]
  simp [patchEdge]

/-- A model of 3 × 3 patches on the first of two processes, which has the patches 1, 5 and 6. -/
def setDemo : Gen Rat := { nx := 3, ny := 3, nz := 1, sets := true, scale := 1, Lx := 1, Ly := 1, Lz := 1, X0 := (0, 0, 0) }
def setSim : Sim := { nGl := 9, myPatches := [1, 5, 6], nProc := 2, fem := true, joins := fun _ _ => true }

example : setSim.nGl = (g2_2D id setDemo).length ∧ (createTopologySets2D setDemo setSim).map (fun S => (setOf S (.edge 1), setOf S (.edge 2), setOf S .inner, setOf S .corners)) =
    some ([⟨1, 1, 1⟩], [⟨3, 2, 1⟩], [⟨2, 0, 2⟩], [⟨1, 1, 0⟩]) := by
  refine ⟨by decide +kernel, by decide +kernel⟩

/-- **Counterexample.**  If the simulator knows of fewer patches than are generated, the sets contain the patch `2^64-1`. -/
theorem C79_few_patches : (createTopologySets2D setDemo { setSim with nGl := 8, myPatches := [], nProc := 1 }).map (fun S => setOf S (.vertex 4)) = some [⟨2^64-1, 4, 0⟩] := by
  decide +kernel

end IFEM.PatchGen
