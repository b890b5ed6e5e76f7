import Verif.Lemmas.PatchGenConn

/-! # Lemmas for C79: the topology sets -/
namespace IFEM.PatchGen
open IFEM.PatchGen.Spec

theorem mem_setOf {l : Sets} {n : Name} {t : Item} : t ∈ setOf l n ↔ (n, t) ∈ l := by
  unfold setOf
  rw [List.mem_map]
  constructor
  · rintro ⟨⟨m, t'⟩, h, rfl⟩
    obtain ⟨h1, h2⟩ := List.mem_filter.1 h
    have : m = n := of_decide_eq_true h2
    subst this
    exact h1
  · intro h
    exact ⟨(n, t), List.mem_filter.2 ⟨h, by simp⟩, rfl⟩

theorem mem_insertion {s : Sim} {names : List Name} {whole : Option Name} {pd : Nat} {i : Item} {n : Name} {t : Item} :
    (n, t) ∈ insertion s names whole pd i ↔ 0 < t.patch ∧ asSize (localIndex s i.patch) = t.patch ∧
      ((n ∈ names ∧ t.item = i.item ∧ t.idim = i.idim) ∨ (whole = some n ∧ t.item = 0 ∧ t.idim = pd)) := by
  unfold insertion
  dsimp only
  by_cases hp : asSize (localIndex s i.patch) > 0
  · rw [if_pos hp, List.mem_append, List.mem_map]
    constructor
    · rintro (⟨m, hm, e⟩ | h)
      · cases e
        exact ⟨hp, rfl, .inl ⟨hm, rfl, rfl⟩⟩
      · cases whole with
        | none => cases h
        | some w =>
          simp only [List.mem_singleton] at h
          cases h
          exact ⟨hp, rfl, .inr ⟨rfl, rfl, rfl⟩⟩
    · rintro ⟨h1, h2, ⟨h3, h4, h5⟩ | ⟨rfl, h4, h5⟩⟩
      · obtain ⟨tp, ti, td⟩ := t
        simp only at h1 h2 h4 h5
        subst h4 h5 h2
        exact .inl ⟨n, h3, rfl⟩
      · obtain ⟨tp, ti, td⟩ := t
        simp only at h1 h2 h4 h5
        subst h4 h5 h2
        exact .inr (by simp)
  · rw [if_neg hp]
    constructor
    · intro h; cases h
    · rintro ⟨h1, h2, -⟩
      omega

theorem here_iff {s : Sim} {p q : Nat} (h1 : 1 ≤ p) (h2 : p ≤ s.nGl) : (0 < q ∧ asSize (localIndex s p) = q) ↔ Here s p q := by
  have h : 0 ≤ localIndex s p := by
    unfold localIndex
    rw [if_neg (by omega)]
    split
    · omega
    · split <;> omega
  unfold Here asSize
  rw [if_neg (by omega)]
  omega

/-- The place `(i, j, k)` is at side `r` of the box. -/
def atSide (nx ny nz : Nat) (r i j k : Nat) : Prop :=
  match r with
  | 1 => i = 0
  | 2 => i = nx-1
  | 3 => j = 0
  | 4 => j = ny-1
  | 5 => k = 0
  | _ => k = nz-1

theorem two {P : Nat → Prop} : (∃ i, i < 2 ∧ P i) ↔ P 0 ∨ P 1 := by
  constructor
  · rintro ⟨i, hi, h⟩
    interval_cases i
    · exact .inl h
    · exact .inr h
  · rintro (h | h)
    · exact ⟨0, by omega, h⟩
    · exact ⟨1, by omega, h⟩

variable {K : Type}

/-- What a side inserts. -/
def sideEntry (side whole : Nat → Name) (d r : Nat) (n : Name) (t : Item) : Prop :=
  ((n = side r ∨ n = .boundary) ∧ t.item = r ∧ t.idim = d) ∨ (n = whole r ∧ t.item = 0 ∧ t.idim = d+1)

theorem mem_faces {g : Gen K} {s : Sim} (hx : 1 ≤ g.nx) (hy : 1 ≤ g.ny) (hz : 1 ≤ g.nz) (hs : s.nGl = g.nx*g.ny*g.nz) {n : Name} {t : Item} :
    (n, t) ∈ faces3D g s ↔ ∃ i j k r, i < g.nx ∧ j < g.ny ∧ k < g.nz ∧ 1 ≤ r ∧ r ≤ 6 ∧ atSide g.nx g.ny g.nz r i j k ∧ Here s (ijk g.nx g.ny i j k) t.patch ∧
      sideEntry .face .facePatches 2 r n t := by
  have hh : ∀ {i j k}, i < g.nx → j < g.ny → k < g.nz → ((0 < t.patch ∧ asSize (localIndex s (ijk g.nx g.ny i j k)) = t.patch) ↔ Here s (ijk g.nx g.ny i j k) t.patch) :=
    fun hi hj hk => here_iff (ijk_range hi hj hk).1 (by rw [hs]; exact (ijk_range hi hj hk).2)
  have one : ∀ {i j k r : Nat}, i < g.nx → j < g.ny → k < g.nz →
      ((n, t) ∈ insertion s [.face r, .boundary] (some (.facePatches r)) 3 ⟨ijk g.nx g.ny i j k, r, 2⟩ ↔ Here s (ijk g.nx g.ny i j k) t.patch ∧ sideEntry .face .facePatches 2 r n t) := by
    intro i j k r hi hj hk
    rw [mem_insertion, ← and_assoc, hh hi hj hk]
    unfold sideEntry
    simp [eq_comm]
  unfold faces3D
  simp only [List.mem_append, List.mem_flatMap, List.mem_range, two, Nat.zero_mul, Nat.one_mul, Nat.add_zero, Nat.reduceAdd]
  constructor
  · rintro (((⟨k, hk, j, hj, h⟩ | ⟨k, hk, j, hj, h⟩) | (⟨k, hk, i, hi, h⟩ | ⟨k, hk, i, hi, h⟩)) | (⟨j, hj, i, hi, h⟩ | ⟨j, hj, i, hi, h⟩))
    · rw [one hx hj hk] at h; exact ⟨_, _, _, 1, hx, hj, hk, by omega, by omega, rfl, h⟩
    · rw [one (by omega) hj hk] at h; exact ⟨_, _, _, 2, by omega, hj, hk, by omega, by omega, rfl, h⟩
    · rw [one hi hy hk] at h; exact ⟨_, _, _, 3, hi, hy, hk, by omega, by omega, rfl, h⟩
    · rw [one hi (by omega) hk] at h; exact ⟨_, _, _, 4, hi, by omega, hk, by omega, by omega, rfl, h⟩
    · rw [one hi hj hz] at h; exact ⟨_, _, _, 5, hi, hj, hz, by omega, by omega, rfl, h⟩
    · rw [one hi hj (by omega)] at h; exact ⟨_, _, _, 6, hi, hj, by omega, by omega, by omega, rfl, h⟩
  · rintro ⟨i, j, k, r, hi, hj, hk, h1, h2, ha, h⟩
    rw [← one hi hj hk] at h
    interval_cases r <;> simp only [atSide] at ha <;> subst ha
    · exact .inl (.inl (.inl ⟨k, hk, j, hj, h⟩))
    · exact .inl (.inl (.inr ⟨k, hk, j, hj, h⟩))
    · exact .inl (.inr (.inl ⟨k, hk, i, hi, h⟩))
    · exact .inl (.inr (.inr ⟨k, hk, i, hi, h⟩))
    · exact .inr (.inl ⟨j, hj, i, hi, h⟩)
    · exact .inr (.inr ⟨j, hj, i, hi, h⟩)

/-- The place `(i, j, k)` is at corner `v`. -/
def atCorner (nx ny nz v i j k : Nat) : Prop := i = (v-1) % 2 * (nx-1) ∧ j = (v-1)/2 % 2 * (ny-1) ∧ k = (v-1)/4 * (nz-1)

theorem mem_vertices3D {g : Gen K} {s : Sim} (hx : 1 ≤ g.nx) (hy : 1 ≤ g.ny) (hz : 1 ≤ g.nz) (hs : s.nGl = g.nx*g.ny*g.nz) {n : Name} {t : Item} :
    (n, t) ∈ vertices3D g s ↔ ∃ i j k v, i < g.nx ∧ j < g.ny ∧ k < g.nz ∧ 1 ≤ v ∧ v ≤ 8 ∧ atCorner g.nx g.ny g.nz v i j k ∧ Here s (ijk g.nx g.ny i j k) t.patch ∧
      (n = .vertex v ∨ n = .corners) ∧ t.item = v ∧ t.idim = 0 := by
  have hh : ∀ {i j k}, i < g.nx → j < g.ny → k < g.nz → ((0 < t.patch ∧ asSize (localIndex s (ijk g.nx g.ny i j k)) = t.patch) ↔ Here s (ijk g.nx g.ny i j k) t.patch) :=
    fun hi hj hk => here_iff (ijk_range hi hj hk).1 (by rw [hs]; exact (ijk_range hi hj hk).2)
  have one : ∀ {i j k v : Nat}, i < g.nx → j < g.ny → k < g.nz →
      ((n, t) ∈ insertion s [.vertex v, .corners] none 0 ⟨ijk g.nx g.ny i j k, v, 0⟩ ↔ Here s (ijk g.nx g.ny i j k) t.patch ∧ (n = .vertex v ∨ n = .corners) ∧ t.item = v ∧ t.idim = 0) := by
    intro i j k r hi hj hk
    rw [mem_insertion, ← and_assoc, hh hi hj hk]
    simp
  have ends : ∀ a m : Nat, a < 2 → 1 ≤ m → a*(m-1) < m := by
    intro a m ha hm
    interval_cases a <;> omega
  unfold vertices3D
  simp only [List.mem_flatMap, List.mem_range]
  constructor
  · rintro ⟨k, hk, j, hj, i, hi, h⟩
    rw [one (ends i _ hi hx) (ends j _ hj hy) (ends k _ hk hz)] at h
    refine ⟨_, _, _, 1+i+2*j+4*k, ends i _ hi hx, ends j _ hj hy, ends k _ hk hz, by omega, by omega, ?_, h⟩
    have e1 : (1+i+2*j+4*k-1) % 2 = i := by omega
    have e2 : (1+i+2*j+4*k-1) / 2 % 2 = j := by omega
    have e3 : (1+i+2*j+4*k-1) / 4 = k := by omega
    exact ⟨by rw [e1], by rw [e2], by rw [e3]⟩
  · rintro ⟨i, j, k, v, hi, hj, hk, h1, h2, ⟨rfl, rfl, rfl⟩, h⟩
    refine ⟨(v-1)/4, by omega, (v-1)/2 % 2, by omega, (v-1) % 2, by omega, ?_⟩
    have e : 1 + (v-1) % 2 + 2*((v-1)/2 % 2) + 4*((v-1)/4) = v := by omega
    rw [e, one hi hj hk]
    exact h

theorem mem_inner {s : Sim} {m pd : Nat} {used : List Nat} (hs : s.nGl = m) {n : Name} {t : Item} :
    (n, t) ∈ innerPatches s m pd used ↔ n = .inner ∧ t.item = 0 ∧ t.idim = pd ∧ t.patch ∉ used ∧ ∃ p, 1 ≤ p ∧ p ≤ m ∧ Here s p t.patch := by
  unfold innerPatches
  simp only [List.mem_flatMap, List.mem_range'_1]
  constructor
  · rintro ⟨p, ⟨h1, h2⟩, h⟩
    split at h
    · rename_i hc
      simp only [List.mem_singleton] at h
      cases h
      exact ⟨rfl, rfl, rfl, hc.2, p, h1, by omega, (here_iff h1 (by omega)).1 ⟨hc.1, rfl⟩⟩
    · cases h
  · rintro ⟨rfl, h1, h2, h3, p, h4, h5, h6⟩
    obtain ⟨h7, h8⟩ := (here_iff h4 (by omega)).2 h6
    refine ⟨p, ⟨h4, by omega⟩, ?_⟩
    rw [h8, if_pos ⟨h7, h3⟩]
    obtain ⟨tp, ti, td⟩ := t
    simp only at h1 h2
    subst h1 h2
    simp

/-- Two patches of a process have different numbers there. -/
theorem here_inj {s : Sim} {p p' q : Nat} (h : Here s p q) (h' : Here s p' q) : p = p' := by
  obtain ⟨h1, h2⟩ := h
  obtain ⟨-, h2'⟩ := h'
  unfold localIndex at h2 h2'
  split at h2
  · omega
  split at h2'
  · omega
  split at h2
  · rename_i hc
    rw [if_pos hc] at h2'
    omega
  · rename_i hc
    rw [if_neg hc] at h2'
    split at h2
    · rename_i a ha
      split at h2'
      · rename_i b hb
        have : a = b := by omega
        subst this
        obtain ⟨_, e1, -⟩ := List.findIdx?_eq_some_iff_getElem.1 ha
        obtain ⟨_, e2, -⟩ := List.findIdx?_eq_some_iff_getElem.1 hb
        simp only [beq_iff_eq] at e1 e2
        exact e1.symm.trans e2
      · omega
    · omega

/-! ## Geometry -/
section
variable [Field K] [LinearOrder K] [IsStrictOrderedRing K]

theorem low1 {x L : K} {n i : Nat} (hL : L ≠ 0) (hn : 1 ≤ n) : x + ((i : K) + 0)*(L/n) = x ↔ i = 0 := by
  constructor
  · intro h
    have : i + 0 = 0 + 0 := scaled_eq (x := x) (step_ne hL hn) (by push_cast; rw [h]; ring)
    omega
  · rintro rfl; simp

theorem high1 {x L : K} {n i : Nat} (hL : L ≠ 0) (hn : 1 ≤ n) : x + ((i : K) + 1)*(L/n) = x + L ↔ i = n-1 := by
  have n0 : (n : K) ≠ 0 := by exact_mod_cast (by omega : n ≠ 0)
  have e : (n : K)*(L/n) = L := by field_simp
  constructor
  · intro h
    have : i + 1 = n + 0 := scaled_eq (x := x) (step_ne hL hn) (by push_cast; rw [h]; linear_combination -e)
    omega
  · rintro rfl
    push_cast [hn]
    linear_combination e

theorem end1 {x L : K} {n i a : Nat} (hL : L ≠ 0) (hn : 1 ≤ n) (ha : a < 2) : x + ((i : K) + (a : K))*(L/n) = x + (a : K)*L ↔ i = a*(n-1) := by
  interval_cases a
  · have := low1 (x := x) (i := i) hL hn
    simpa using this
  · have := high1 (x := x) (i := i) hL hn
    simpa using this

theorem side_3D {g : Gen K} (hx : 1 ≤ g.nx) (hy : 1 ≤ g.ny) (hz : 1 ≤ g.nz) (hLx : g.Lx*g.scale ≠ 0) (hLy : g.Ly*g.scale ≠ 0) (hLz : g.Lz*g.scale ≠ 0) {r i j k : Nat} (h1 : 1 ≤ r) (h2 : r ≤ 6) :
    atSide g.nx g.ny g.nz r i j k ↔ ∀ a b : K, OnDomainSide g r (onPatch (patch3 id g.X0 (g.Lx*g.scale/g.nx) (g.Ly*g.scale/g.ny) (g.Lz*g.scale/g.nz) i j k) (onSide r a b)) := by
  simp only [point_3D]
  interval_cases r <;> simp only [atSide, OnDomainSide, onSide, low1 hLx hx, low1 hLy hy, low1 hLz hz, high1 hLx hx, high1 hLy hy, high1 hLz hz] <;> simp

theorem corner_3D {g : Gen K} (hx : 1 ≤ g.nx) (hy : 1 ≤ g.ny) (hz : 1 ≤ g.nz) (hLx : g.Lx*g.scale ≠ 0) (hLy : g.Ly*g.scale ≠ 0) (hLz : g.Lz*g.scale ≠ 0) {v i j k : Nat} (h1 : 1 ≤ v) (h2 : v ≤ 8) :
    atCorner g.nx g.ny g.nz v i j k ↔ onPatch (patch3 id g.X0 (g.Lx*g.scale/g.nx) (g.Ly*g.scale/g.ny) (g.Lz*g.scale/g.nz) i j k) (vertexAt v) = domainCorner g 3 v := by
  rw [point_3D]
  unfold vertexAt domainCorner atCorner
  simp only [Prod.mk.injEq, Nat.le_refl, if_true, show 2 ≤ 3 by omega]
  rw [end1 hLx hx (by omega), end1 hLy hy (by omega), end1 hLz hz (by omega)]

theorem free_3D {g : Gen K} (hx : 1 ≤ g.nx) (hy : 1 ≤ g.ny) (hz : 1 ≤ g.nz) (hLx : g.Lx*g.scale ≠ 0) (hLy : g.Ly*g.scale ≠ 0) (hLz : g.Lz*g.scale ≠ 0) {r i j k : Nat} (h1 : 1 ≤ r) (h2 : r ≤ 6)
    (hi : i < g.nx) (hj : j < g.ny) (hk : k < g.nz) :
    (∃ q u, 1 ≤ u ∧ u ≤ 2*3 ∧ Coincide (g2_3D id g) (ijk g.nx g.ny i j k) r q u) ↔ ¬ atSide g.nx g.ny g.nz r i j k := by
  constructor
  · rintro ⟨q, u, hu1, hu2, hne, hp, hq, P, Q, eP, eQ, hh⟩ ha
    rw [get_3D id g hi hj hk] at eP
    cases eP
    obtain ⟨i', j', k', hi', hj', hk', rfl, rfl⟩ := place_3D hx hy hz hq eQ
    rcases co_3D (step_ne hLx hx) (step_ne hLy hy) (step_ne hLz hz) ⟨h1, h2⟩ ⟨hu1, by omega⟩ hh with
      ⟨rfl, rfl, rfl, rfl⟩ | ⟨rfl, rfl, rfl, rfl, rfl⟩ | ⟨rfl, rfl, rfl, rfl, rfl⟩ | ⟨rfl, rfl, rfl, rfl, rfl⟩ | ⟨rfl, rfl, rfl, rfl, rfl⟩ | ⟨rfl, rfl, rfl, rfl, rfl⟩ | ⟨rfl, rfl, rfl, rfl, rfl⟩ <;>
      first
      | exact hne rfl
      | (simp only [atSide] at ha; omega)
  · intro ha
    have mk : ∀ i' j' k' u, i' < g.nx → j' < g.ny → k' < g.nz → 1 ≤ u → u ≤ 2*3 → r ≠ u →
        (∀ a b : K, onPatch (patch3 id g.X0 (g.Lx*g.scale/g.nx) (g.Ly*g.scale/g.ny) (g.Lz*g.scale/g.nz) i j k) (onSide r a b) =
          onPatch (patch3 id g.X0 (g.Lx*g.scale/g.nx) (g.Ly*g.scale/g.ny) (g.Lz*g.scale/g.nz) i' j' k') (onSide u a b)) →
        ∃ q u, 1 ≤ u ∧ u ≤ 2*3 ∧ Coincide (g2_3D id g) (ijk g.nx g.ny i j k) r q u := by
      intro i' j' k' u hi' hj' hk' hu1 hu2 hne hh
      exact ⟨_, u, hu1, hu2, fun e => hne (Prod.mk.inj e).2, (ijk_range hi hj hk).1, (ijk_range hi' hj' hk').1, _, _, get_3D id g hi hj hk, get_3D id g hi' hj' hk', hh⟩
    interval_cases r <;> simp only [atSide] at ha
    · refine mk (i-1) j k 2 (by omega) hj hk (by omega) (by omega) (by omega) fun a b => ?_
      rw [point_3D, point_3D]
      simp only [onSide]
      push_cast [show 1 ≤ i by omega]
      refine Prod.ext ?_ (Prod.ext ?_ ?_) <;> simp
    · refine mk (i+1) j k 1 (by omega) hj hk (by omega) (by omega) (by omega) fun a b => ?_
      rw [point_3D, point_3D]
      simp only [onSide]
      push_cast
      refine Prod.ext ?_ (Prod.ext ?_ ?_) <;> simp
    · refine mk i (j-1) k 4 hi (by omega) hk (by omega) (by omega) (by omega) fun a b => ?_
      rw [point_3D, point_3D]
      simp only [onSide]
      push_cast [show 1 ≤ j by omega]
      refine Prod.ext ?_ (Prod.ext ?_ ?_) <;> simp
    · refine mk i (j+1) k 3 hi (by omega) hk (by omega) (by omega) (by omega) fun a b => ?_
      rw [point_3D, point_3D]
      simp only [onSide]
      push_cast
      refine Prod.ext ?_ (Prod.ext ?_ ?_) <;> simp
    · refine mk i j (k-1) 6 hi hj (by omega) (by omega) (by omega) (by omega) fun a b => ?_
      rw [point_3D, point_3D]
      simp only [onSide]
      push_cast [show 1 ≤ k by omega]
      refine Prod.ext ?_ (Prod.ext ?_ ?_) <;> simp
    · refine mk i j (k+1) 5 hi hj (by omega) (by omega) (by omega) (by omega) fun a b => ?_
      rw [point_3D, point_3D]
      simp only [onSide]
      push_cast
      refine Prod.ext ?_ (Prod.ext ?_ ?_) <;> simp

theorem side_2D {g : Gen K} (hx : 1 ≤ g.nx) (hy : 1 ≤ g.ny) (hLx : g.Lx*g.scale ≠ 0) (hLy : g.Ly*g.scale ≠ 0) {r i j : Nat} (h1 : 1 ≤ r) (h2 : r ≤ 4) :
    atSide g.nx g.ny 1 r i j 0 ↔ ∀ a b : K, OnDomainSide g r (onPatch (patch2 id g.X0 (g.Lx*g.scale/g.nx) (g.Ly*g.scale/g.ny) i j) (onSide r a b)) := by
  simp only [point_2D]
  interval_cases r <;> simp only [atSide, OnDomainSide, onSide, low1 hLx hx, low1 hLy hy, high1 hLx hx, high1 hLy hy] <;> simp

theorem corner_2D {g : Gen K} (hx : 1 ≤ g.nx) (hy : 1 ≤ g.ny) (hLx : g.Lx*g.scale ≠ 0) (hLy : g.Ly*g.scale ≠ 0) {v i j : Nat} (h1 : 1 ≤ v) (h2 : v ≤ 4) :
    atCorner g.nx g.ny 1 v i j 0 ↔ onPatch (patch2 id g.X0 (g.Lx*g.scale/g.nx) (g.Ly*g.scale/g.ny) i j) (vertexAt v) = domainCorner g 2 v := by
  rw [point_2D]
  unfold vertexAt domainCorner atCorner
  simp only [Prod.mk.injEq, Nat.le_refl, if_true, show ¬ 3 ≤ 2 by omega, if_false]
  rw [end1 hLx hx (by omega), end1 hLy hy (by omega)]
  simp

theorem free_2D {g : Gen K} (hx : 1 ≤ g.nx) (hy : 1 ≤ g.ny) (hLx : g.Lx*g.scale ≠ 0) (hLy : g.Ly*g.scale ≠ 0) {r i j : Nat} (h1 : 1 ≤ r) (h2 : r ≤ 4) (hi : i < g.nx) (hj : j < g.ny) :
    (∃ q u, 1 ≤ u ∧ u ≤ 2*2 ∧ Coincide (g2_2D id g) (ijk g.nx g.ny i j 0) r q u) ↔ ¬ atSide g.nx g.ny 1 r i j 0 := by
  have rg : ∀ {i j}, i < g.nx → j < g.ny → 1 ≤ ijk g.nx g.ny i j 0 := fun hi hj => (ijk_range hi hj (by omega : 0 < 1)).1
  constructor
  · rintro ⟨q, u, hu1, hu2, hne, hp, hq, P, Q, eP, eQ, hh⟩ ha
    rw [get_2D id g hi hj] at eP
    cases eP
    obtain ⟨i', j', hi', hj', rfl, rfl⟩ := place_2D hx hy hq eQ
    rcases co_2D (step_ne hLx hx) (step_ne hLy hy) ⟨h1, h2⟩ ⟨hu1, by omega⟩ hh with
      ⟨rfl, rfl, rfl⟩ | ⟨rfl, rfl, rfl, rfl⟩ | ⟨rfl, rfl, rfl, rfl⟩ | ⟨rfl, rfl, rfl, rfl⟩ | ⟨rfl, rfl, rfl, rfl⟩ <;>
      first
      | exact hne rfl
      | (simp only [atSide] at ha; omega)
  · intro ha
    have mk : ∀ i' j' u, i' < g.nx → j' < g.ny → 1 ≤ u → u ≤ 2*2 → r ≠ u →
        (∀ a b : K, onPatch (patch2 id g.X0 (g.Lx*g.scale/g.nx) (g.Ly*g.scale/g.ny) i j) (onSide r a b) =
          onPatch (patch2 id g.X0 (g.Lx*g.scale/g.nx) (g.Ly*g.scale/g.ny) i' j') (onSide u a b)) →
        ∃ q u, 1 ≤ u ∧ u ≤ 2*2 ∧ Coincide (g2_2D id g) (ijk g.nx g.ny i j 0) r q u := by
      intro i' j' u hi' hj' hu1 hu2 hne hh
      exact ⟨_, u, hu1, hu2, fun e => hne (Prod.mk.inj e).2, rg hi hj, rg hi' hj', _, _, get_2D id g hi hj, get_2D id g hi' hj', hh⟩
    interval_cases r <;> simp only [atSide] at ha
    · refine mk (i-1) j 2 (by omega) hj (by omega) (by omega) (by omega) fun a b => ?_
      rw [point_2D, point_2D]
      simp only [onSide]
      push_cast [show 1 ≤ i by omega]
      refine Prod.ext ?_ (Prod.ext ?_ ?_) <;> simp
    · refine mk (i+1) j 1 (by omega) hj (by omega) (by omega) (by omega) fun a b => ?_
      rw [point_2D, point_2D]
      simp only [onSide]
      push_cast
      refine Prod.ext ?_ (Prod.ext ?_ ?_) <;> simp
    · refine mk i (j-1) 4 hi (by omega) (by omega) (by omega) (by omega) fun a b => ?_
      rw [point_2D, point_2D]
      simp only [onSide]
      push_cast [show 1 ≤ j by omega]
      refine Prod.ext ?_ (Prod.ext ?_ ?_) <;> simp
    · refine mk i (j+1) 3 hi (by omega) (by omega) (by omega) (by omega) fun a b => ?_
      rw [point_2D, point_2D]
      simp only [onSide]
      push_cast
      refine Prod.ext ?_ (Prod.ext ?_ ?_) <;> simp

end
end IFEM.PatchGen
