import Verif.Lemmas.PatchGen
import Mathlib.Data.List.Nodup

/-! # Lemmas for C79: the calls of the generators -/
namespace IFEM.PatchGen
open IFEM.PatchGen.Spec

theorem nodup_flat {α β : Type} {f : α → List β} : ∀ {l : List α}, l.Nodup → (∀ a ∈ l, (f a).Nodup) → (∀ a ∈ l, ∀ b ∈ l, ∀ x, x ∈ f a → x ∈ f b → a = b) → (l.flatMap f).Nodup
  | [], _, _, _ => List.nodup_nil
  | a :: l, hn, h1, h2 => by
    rw [List.flatMap_cons, List.nodup_append]
    rw [List.nodup_cons] at hn
    refine ⟨h1 a (by simp), nodup_flat hn.2 (fun b hb => h1 b (by simp [hb])) (fun b hb c hc => h2 b (by simp [hb]) c (by simp [hc])), ?_⟩
    intro x hx y hy e
    subst e
    obtain ⟨b, hb, hxb⟩ := List.mem_flatMap.1 hy
    have := h2 a (by simp) b (by simp [hb]) x hx hxb
    subst this
    exact hn.1 hb

theorem nodup_row {β : Type} {n : Nat} {f : Nat → β} (h : ∀ i < n, ∀ i' < n, f i = f i' → i = i') : ((List.range n).map f).Nodup := by
  refine List.Nodup.map_on ?_ List.nodup_range
  intro x hx y hy e
  exact h x (List.mem_range.1 hx) y (List.mem_range.1 hy) e

theorem nodup_grid {β : Type} {m n : Nat} {f : Nat → Nat → β} (h : ∀ j < m, ∀ i < n, ∀ j' < m, ∀ i' < n, f j i = f j' i' → j = j' ∧ i = i') :
    ((List.range m).flatMap fun j => (List.range n).map (f j)).Nodup := by
  refine nodup_flat List.nodup_range (fun j hj => nodup_row fun i hi i' hi' e => ?_) ?_
  · exact (h j (List.mem_range.1 hj) i hi j (List.mem_range.1 hj) i' hi' e).2
  · intro j hj j' hj' x hx hx'
    obtain ⟨i, hi, e⟩ := List.mem_map.1 hx
    obtain ⟨i', hi', e'⟩ := List.mem_map.1 hx'
    exact (h j (List.mem_range.1 hj) i (List.mem_range.1 hi) j' (List.mem_range.1 hj') i' (List.mem_range.1 hi') (e.trans e'.symm)).1

theorem nodup_cube {β : Type} {l m n : Nat} {f : Nat → Nat → Nat → β} (h : ∀ k < l, ∀ j < m, ∀ i < n, ∀ k' < l, ∀ j' < m, ∀ i' < n, f k j i = f k' j' i' → k = k' ∧ j = j' ∧ i = i') :
    ((List.range l).flatMap fun k => (List.range m).flatMap fun j => (List.range n).map (f k j)).Nodup := by
  refine nodup_flat List.nodup_range (fun k hk => nodup_grid fun j hj i hi j' hj' i' hi' e => ?_) ?_
  · exact (h k (List.mem_range.1 hk) j hj i hi k (List.mem_range.1 hk) j' hj' i' hi' e).2
  · intro k hk k' hk' x hx hx'
    obtain ⟨j, hj, hx⟩ := List.mem_flatMap.1 hx
    obtain ⟨j', hj', hx'⟩ := List.mem_flatMap.1 hx'
    obtain ⟨i, hi, e⟩ := List.mem_map.1 hx
    obtain ⟨i', hi', e'⟩ := List.mem_map.1 hx'
    exact (h k (List.mem_range.1 hk) j (List.mem_range.1 hj) i (List.mem_range.1 hi) k' (List.mem_range.1 hk') j' (List.mem_range.1 hj') i' (List.mem_range.1 hi')
      (e.trans e'.symm)).1

/-- The side of a connection. -/
def face (d m s mi si : Nat) : Iface := { master := m, slave := s, midx := mi, sidx := si, dim := d }

variable {K : Type}

/-- The calls of a 3D model. -/
theorem mem_3D {g : Gen K} {a : Act} : a ∈ acts3D g ↔
    (∃ i j k, i+1 < g.nx ∧ j < g.ny ∧ k < g.nz ∧ a = .join true (face 2 (ijk g.nx g.ny i j k) (ijk g.nx g.ny (i+1) j k) 2 1)) ∨
    (∃ i j k, i < g.nx ∧ j+1 < g.ny ∧ k < g.nz ∧ a = .join true (face 2 (ijk g.nx g.ny i j k) (ijk g.nx g.ny i (j+1) k) 4 3)) ∨
    (∃ i j k, i < g.nx ∧ j < g.ny ∧ k+1 < g.nz ∧ a = .join true (face 2 (ijk g.nx g.ny i j k) (ijk g.nx g.ny i j (k+1)) 6 5)) ∨
    (∃ j k, g.perX = true ∧ g.nx ≤ 1 ∧ j < g.ny ∧ k < g.nz ∧ a = .close (ijk g.nx g.ny 0 j k) 1) ∨
    (∃ j k, g.perX = true ∧ 1 < g.nx ∧ j < g.ny ∧ k < g.nz ∧ a = .join false (face 2 (ijk g.nx g.ny 0 j k) (ijk g.nx g.ny (g.nx-1) j k) 1 2)) ∨
    (∃ i k, g.perY = true ∧ g.ny ≤ 1 ∧ i < g.nx ∧ k < g.nz ∧ a = .close (ijk g.nx g.ny i 0 k) 2) ∨
    (∃ i k, g.perY = true ∧ 1 < g.ny ∧ i < g.nx ∧ k < g.nz ∧ a = .join false (face 2 (ijk g.nx g.ny i 0 k) (ijk g.nx g.ny i (g.ny-1) k) 3 4)) ∨
    (∃ i j, g.perZ = true ∧ g.nz ≤ 1 ∧ i < g.nx ∧ j < g.ny ∧ a = .close (ijk g.nx g.ny i j 0) 3) ∨
    (∃ i j, g.perZ = true ∧ 1 < g.nz ∧ i < g.nx ∧ j < g.ny ∧ a = .join false (face 2 (ijk g.nx g.ny i j 0) (ijk g.nx g.ny i j (g.nz-1)) 5 6)) := by
  unfold acts3D face
  simp only [List.mem_append, List.mem_flatMap, List.mem_map, List.mem_range, or_assoc]
  constructor
  · rintro (⟨k, hk, j, hj, i, hi, rfl⟩ | ⟨k, hk, j, hj, i, hi, rfl⟩ | ⟨k, hk, j, hj, i, hi, rfl⟩ | h | h | h)
    · exact .inl ⟨i, j, k, by omega, hj, hk, rfl⟩
    · exact .inr (.inl ⟨i, j, k, hi, by omega, hk, rfl⟩)
    · exact .inr (.inr (.inl ⟨i, j, k, hi, hj, by omega, rfl⟩))
    · by_cases hp : g.perX = true
      · rw [if_pos hp] at h
        simp only [List.mem_flatMap, List.mem_map, List.mem_range] at h
        obtain ⟨k, hk, j, hj, rfl⟩ := h
        by_cases hn : g.nx ≤ 1
        · rw [if_pos hn]
          exact .inr (.inr (.inr (.inl ⟨j, k, hp, hn, hj, hk, rfl⟩)))
        · rw [if_neg hn]
          exact .inr (.inr (.inr (.inr (.inl ⟨j, k, hp, by omega, hj, hk, rfl⟩))))
      · rw [if_neg hp] at h; cases h
    · by_cases hp : g.perY = true
      · rw [if_pos hp] at h
        simp only [List.mem_flatMap, List.mem_map, List.mem_range] at h
        obtain ⟨k, hk, i, hi, rfl⟩ := h
        by_cases hn : g.ny ≤ 1
        · rw [if_pos hn]
          exact .inr (.inr (.inr (.inr (.inr (.inl ⟨i, k, hp, hn, hi, hk, rfl⟩)))))
        · rw [if_neg hn]
          exact .inr (.inr (.inr (.inr (.inr (.inr (.inl ⟨i, k, hp, by omega, hi, hk, rfl⟩))))))
      · rw [if_neg hp] at h; cases h
    · by_cases hp : g.perZ = true
      · rw [if_pos hp] at h
        simp only [List.mem_flatMap, List.mem_map, List.mem_range] at h
        obtain ⟨j, hj, i, hi, rfl⟩ := h
        by_cases hn : g.nz ≤ 1
        · rw [if_pos hn]
          exact .inr (.inr (.inr (.inr (.inr (.inr (.inr (.inl ⟨i, j, hp, hn, hi, hj, rfl⟩)))))))
        · rw [if_neg hn]
          exact .inr (.inr (.inr (.inr (.inr (.inr (.inr (.inr ⟨i, j, hp, by omega, hi, hj, rfl⟩)))))))
      · rw [if_neg hp] at h; cases h
  · rintro (⟨i, j, k, hi, hj, hk, rfl⟩ | ⟨i, j, k, hi, hj, hk, rfl⟩ | ⟨i, j, k, hi, hj, hk, rfl⟩ | ⟨j, k, hp, hn, hj, hk, rfl⟩ | ⟨j, k, hp, hn, hj, hk, rfl⟩ |
      ⟨i, k, hp, hn, hj, hk, rfl⟩ | ⟨i, k, hp, hn, hj, hk, rfl⟩ | ⟨i, j, hp, hn, hj, hk, rfl⟩ | ⟨i, j, hp, hn, hj, hk, rfl⟩)
    · exact .inl ⟨k, hk, j, hj, i, by omega, rfl⟩
    · exact .inr (.inl ⟨k, hk, j, by omega, i, hi, rfl⟩)
    · exact .inr (.inr (.inl ⟨k, by omega, j, hj, i, hi, rfl⟩))
    · refine .inr (.inr (.inr (.inl ?_)))
      rw [if_pos hp]
      exact List.mem_flatMap.2 ⟨k, List.mem_range.2 hk, List.mem_map.2 ⟨j, List.mem_range.2 hj, by rw [if_pos hn]⟩⟩
    · refine .inr (.inr (.inr (.inl ?_)))
      rw [if_pos hp]
      exact List.mem_flatMap.2 ⟨k, List.mem_range.2 hk, List.mem_map.2 ⟨j, List.mem_range.2 hj, by rw [if_neg (by omega)]⟩⟩
    · refine .inr (.inr (.inr (.inr (.inl ?_))))
      rw [if_pos hp]
      exact List.mem_flatMap.2 ⟨k, List.mem_range.2 hk, List.mem_map.2 ⟨i, List.mem_range.2 hj, by rw [if_pos hn]⟩⟩
    · refine .inr (.inr (.inr (.inr (.inl ?_))))
      rw [if_pos hp]
      exact List.mem_flatMap.2 ⟨k, List.mem_range.2 hk, List.mem_map.2 ⟨i, List.mem_range.2 hj, by rw [if_neg (by omega)]⟩⟩
    · refine .inr (.inr (.inr (.inr (.inr ?_))))
      rw [if_pos hp]
      exact List.mem_flatMap.2 ⟨j, List.mem_range.2 hk, List.mem_map.2 ⟨i, List.mem_range.2 hj, by rw [if_pos hn]⟩⟩
    · refine .inr (.inr (.inr (.inr (.inr ?_))))
      rw [if_pos hp]
      exact List.mem_flatMap.2 ⟨j, List.mem_range.2 hk, List.mem_map.2 ⟨i, List.mem_range.2 hj, by rw [if_neg (by omega)]⟩⟩

/-- The calls of a 2D model. -/
theorem mem_2D {g : Gen K} {a : Act} : a ∈ acts2D g ↔
    (∃ i j, i+1 < g.nx ∧ j < g.ny ∧ a = .join true (face 1 (ijk g.nx g.ny i j 0) (ijk g.nx g.ny (i+1) j 0) 2 1)) ∨
    (∃ i j, i < g.nx ∧ j+1 < g.ny ∧ a = .join true (face 1 (ijk g.nx g.ny i j 0) (ijk g.nx g.ny i (j+1) 0) 4 3)) ∨
    (∃ j, g.perX = true ∧ g.nx ≤ 1 ∧ j < g.ny ∧ a = .close (ijk g.nx g.ny 0 j 0) 1) ∨
    (∃ j, g.perX = true ∧ 1 < g.nx ∧ j < g.ny ∧ a = .join false (face 1 (ijk g.nx g.ny 0 j 0) (ijk g.nx g.ny (g.nx-1) j 0) 1 2)) ∨
    (∃ i, g.perY = true ∧ g.ny ≤ 1 ∧ i < g.nx ∧ a = .close (ijk g.nx g.ny i 0 0) 2) ∨
    (∃ i, g.perY = true ∧ 1 < g.ny ∧ i < g.nx ∧ a = .join false (face 1 (ijk g.nx g.ny i 0 0) (ijk g.nx g.ny i (g.ny-1) 0) 3 4)) := by
  unfold acts2D face
  simp only [List.mem_append, List.mem_flatMap, List.mem_map, List.mem_range, or_assoc]
  constructor
  · rintro (⟨j, hj, i, hi, rfl⟩ | ⟨j, hj, i, hi, rfl⟩ | h | h)
    · exact .inl ⟨i, j, by omega, hj, rfl⟩
    · exact .inr (.inl ⟨i, j, hi, by omega, rfl⟩)
    · by_cases hp : g.perX = true
      · rw [if_pos hp] at h
        simp only [List.mem_map, List.mem_range] at h
        obtain ⟨j, hj, rfl⟩ := h
        by_cases hn : g.nx ≤ 1
        · rw [if_pos hn]
          exact .inr (.inr (.inl ⟨j, hp, hn, hj, rfl⟩))
        · rw [if_neg hn]
          exact .inr (.inr (.inr (.inl ⟨j, hp, by omega, hj, rfl⟩)))
      · rw [if_neg hp] at h; cases h
    · by_cases hp : g.perY = true
      · rw [if_pos hp] at h
        simp only [List.mem_map, List.mem_range] at h
        obtain ⟨i, hi, rfl⟩ := h
        by_cases hn : g.ny ≤ 1
        · rw [if_pos hn]
          exact .inr (.inr (.inr (.inr (.inl ⟨i, hp, hn, hi, rfl⟩))))
        · rw [if_neg hn]
          exact .inr (.inr (.inr (.inr (.inr ⟨i, hp, by omega, hi, rfl⟩))))
      · rw [if_neg hp] at h; cases h
  · rintro (⟨i, j, hi, hj, rfl⟩ | ⟨i, j, hi, hj, rfl⟩ | ⟨j, hp, hn, hj, rfl⟩ | ⟨j, hp, hn, hj, rfl⟩ | ⟨i, hp, hn, hj, rfl⟩ | ⟨i, hp, hn, hj, rfl⟩)
    · exact .inl ⟨j, hj, i, by omega, rfl⟩
    · exact .inr (.inl ⟨j, by omega, i, hi, rfl⟩)
    · refine .inr (.inr (.inl ?_))
      rw [if_pos hp]
      exact List.mem_map.2 ⟨j, List.mem_range.2 hj, by rw [if_pos hn]⟩
    · refine .inr (.inr (.inl ?_))
      rw [if_pos hp]
      exact List.mem_map.2 ⟨j, List.mem_range.2 hj, by rw [if_neg (by omega)]⟩
    · refine .inr (.inr (.inr ?_))
      rw [if_pos hp]
      exact List.mem_map.2 ⟨i, List.mem_range.2 hj, by rw [if_pos hn]⟩
    · refine .inr (.inr (.inr ?_))
      rw [if_pos hp]
      exact List.mem_map.2 ⟨i, List.mem_range.2 hj, by rw [if_neg (by omega)]⟩

/-- The calls of a 1D model. -/
theorem mem_1D {g : Gen K} {a : Act} : a ∈ acts1D g ↔
    (∃ i, i+1 < g.nx ∧ a = .join true (face 0 (i+1) (i+2) 2 1)) ∨
    (g.perX = true ∧ g.nx ≤ 1 ∧ a = .close 1 1) ∨
    (g.perX = true ∧ 1 < g.nx ∧ a = .join false (face 0 1 g.nx 1 2)) := by
  unfold acts1D face
  simp only [List.mem_append, List.mem_map, List.mem_range]
  constructor
  · rintro (⟨i, hi, rfl⟩ | h)
    · exact .inl ⟨i, by omega, rfl⟩
    · by_cases hp : g.perX = true
      · rw [if_pos hp] at h
        by_cases hn : g.nx ≤ 1
        · rw [if_pos hn] at h
          exact .inr (.inl ⟨hp, hn, by simpa using h⟩)
        · rw [if_neg hn] at h
          exact .inr (.inr ⟨hp, by omega, by simpa using h⟩)
      · rw [if_neg hp] at h; cases h
  · rintro (⟨i, hi, rfl⟩ | ⟨hp, hn, rfl⟩ | ⟨hp, hn, rfl⟩)
    · exact .inl ⟨i, by omega, rfl⟩
    · right; rw [if_pos hp, if_pos hn]; simp
    · right; rw [if_pos hp, if_neg (by omega)]; simp

/-- The number of the side of the master, or of the direction that is closed. -/
def tag : Act → Bool × Nat
  | .join _ c => (true, c.midx)
  | .close _ d => (false, d)

theorem disjoint_tags {l m : List Act} {t : Bool × Nat → Prop} (h1 : ∀ a ∈ l, t (tag a)) (h2 : ∀ a ∈ m, ¬ t (tag a)) : ∀ a ∈ l, ∀ b ∈ m, a ≠ b := by
  intro a ha b hb e
  subst e
  exact h2 a hb (h1 a ha)

/-- The calls for one periodic direction. -/
theorem nodup_per {per : Bool} {n m1 m2 : Nat} {f h : Nat → Nat → Nat} {mi dir : Nat}
    (inj : ∀ j < m1, ∀ i < m2, ∀ j' < m1, ∀ i' < m2, f j i = f j' i' → j = j' ∧ i = i') {d : Nat} :
    (if per then (List.range m1).flatMap fun j => (List.range m2).map fun i =>
      if n ≤ 1 then Act.close (f j i) dir else Act.join false { master := f j i, slave := h j i, midx := mi, sidx := mi+1, dim := d } else []).Nodup := by
  by_cases hp : per = true
  · rw [if_pos hp]
    by_cases hn : n ≤ 1
    · simp only [hn, if_true]
      exact nodup_grid fun j hj i hi j' hj' i' hi' e => inj j hj i hi j' hj' i' hi' (Act.close.inj e).1
    · simp only [hn, if_false]
      refine nodup_grid fun j hj i hi j' hj' i' hi' e => ?_
      simp only [Act.join.injEq, Iface.mk.injEq] at e
      exact inj j hj i hi j' hj' i' hi' e.2.1
  · rw [if_neg hp]; exact List.nodup_nil

theorem tag_per {per : Bool} {n m1 m2 : Nat} {f h : Nat → Nat → Nat} {mi dir d : Nat} :
    ∀ a ∈ (if per then (List.range m1).flatMap fun j => (List.range m2).map fun i =>
      if n ≤ 1 then Act.close (f j i) dir else Act.join false { master := f j i, slave := h j i, midx := mi, sidx := mi+1, dim := d } else []),
      tag a = (false, dir) ∨ tag a = (true, mi) := by
  intro a ha
  by_cases hp : per = true
  · rw [if_pos hp] at ha
    simp only [List.mem_flatMap, List.mem_map] at ha
    obtain ⟨_, _, _, _, rfl⟩ := ha
    by_cases hn : n ≤ 1
    · rw [if_pos hn]; exact .inl rfl
    · rw [if_neg hn]; exact .inr rfl
  · rw [if_neg hp] at ha; cases ha

/-- No call is made twice. -/
theorem nodup_3D (g : Gen K) (hx : 1 ≤ g.nx) (hy : 1 ≤ g.ny) (hz : 1 ≤ g.nz) : (acts3D g).Nodup := by
  have inj : ∀ {i j k i' j' k' : Nat}, i < g.nx → i' < g.nx → j < g.ny → j' < g.ny → ijk g.nx g.ny i j k = ijk g.nx g.ny i' j' k' → k = k' ∧ j = j' ∧ i = i' := by
    intro i j k i' j' k' h1 h2 h3 h4 e
    obtain ⟨a, b, c⟩ := ijk_inj h1 h2 h3 h4 e
    exact ⟨c, b, a⟩
  unfold acts3D
  dsimp only
  simp only [List.nodup_append]
  refine ⟨⟨⟨⟨⟨?_, ?_, ?_⟩, ?_, ?_⟩, nodup_per ?_, ?_⟩, nodup_per ?_, ?_⟩, nodup_per ?_, ?_⟩
  · exact nodup_cube fun k hk j hj i hi k' hk' j' hj' i' hi' e => by
      simp only [Act.join.injEq, Iface.mk.injEq] at e
      exact inj (by omega) (by omega) hj hj' e.2.1
  · exact nodup_cube fun k hk j hj i hi k' hk' j' hj' i' hi' e => by
      simp only [Act.join.injEq, Iface.mk.injEq] at e
      exact inj (by omega) (by omega) (by omega) (by omega) e.2.1
  · intro a ha b hb e
    subst e
    simp only [List.mem_flatMap, List.mem_map] at ha hb
    obtain ⟨_, _, _, _, _, _, rfl⟩ := ha
    obtain ⟨_, _, _, _, _, _, e⟩ := hb
    simp at e
  · exact nodup_cube fun k hk j hj i hi k' hk' j' hj' i' hi' e => by
      simp only [Act.join.injEq, Iface.mk.injEq] at e
      exact inj hi hi' hj hj' e.2.1
  · intro a ha b hb e
    subst e
    simp only [List.mem_append, List.mem_flatMap, List.mem_map] at ha hb
    obtain ⟨_, _, _, _, _, _, rfl⟩ := hb
    rcases ha with ⟨_, _, _, _, _, _, e⟩ | ⟨_, _, _, _, _, _, e⟩ <;> simp at e
  · exact fun j hj i hi j' hj' i' hi' e => ⟨(inj hx hx hi hi' e).1, (inj hx hx hi hi' e).2.1⟩
  · intro a ha b hb e
    subst e
    rcases tag_per a hb with e | e <;>
    · simp only [List.mem_append, List.mem_flatMap, List.mem_map] at ha
      rcases ha with (⟨_, _, _, _, _, _, rfl⟩ | ⟨_, _, _, _, _, _, rfl⟩) | ⟨_, _, _, _, _, _, rfl⟩ <;> simp [tag] at e
  · exact fun j hj i hi j' hj' i' hi' e => ⟨(inj hi hi' hy hy e).1, (inj hi hi' hy hy e).2.2⟩
  · intro a ha b hb e
    subst e
    simp only [List.mem_append (s := _ ++ _)] at ha
    rcases ha with ha | ha
    · rcases tag_per a hb with e | e <;>
      · simp only [List.mem_append, List.mem_flatMap, List.mem_map] at ha
        rcases ha with (⟨_, _, _, _, _, _, rfl⟩ | ⟨_, _, _, _, _, _, rfl⟩) | ⟨_, _, _, _, _, _, rfl⟩ <;> simp [tag] at e
    · rcases tag_per a hb with e | e <;> rcases tag_per a ha with e' | e' <;> rw [e] at e' <;> simp at e'
  · exact fun j hj i hi j' hj' i' hi' e => ⟨(inj hi hi' hj hj' e).2.1, (inj hi hi' hj hj' e).2.2⟩
  · intro a ha b hb e
    subst e
    rcases List.mem_append.1 ha with ha | ha
    · rcases List.mem_append.1 ha with ha | ha
      · rcases tag_per a hb with e | e <;>
        · simp only [List.mem_append, List.mem_flatMap, List.mem_map] at ha
          rcases ha with (⟨_, _, _, _, _, _, rfl⟩ | ⟨_, _, _, _, _, _, rfl⟩) | ⟨_, _, _, _, _, _, rfl⟩ <;> simp [tag] at e
      · rcases tag_per a hb with e | e <;> rcases tag_per a ha with e' | e' <;> rw [e] at e' <;> simp at e'
    · rcases tag_per a hb with e | e <;> rcases tag_per a ha with e' | e' <;> rw [e] at e' <;> simp at e'

theorem nodup_per1 {per : Bool} {n m : Nat} {f h : Nat → Nat} {mi dir d : Nat} (inj : ∀ j < m, ∀ j' < m, f j = f j' → j = j') :
    (if per then (List.range m).map fun j =>
      if n ≤ 1 then Act.close (f j) dir else Act.join false { master := f j, slave := h j, midx := mi, sidx := mi+1, dim := d } else []).Nodup := by
  by_cases hp : per = true
  · rw [if_pos hp]
    by_cases hn : n ≤ 1
    · simp only [hn, if_true]
      exact nodup_row fun j hj j' hj' e => inj j hj j' hj' (Act.close.inj e).1
    · simp only [hn, if_false]
      refine nodup_row fun j hj j' hj' e => ?_
      simp only [Act.join.injEq, Iface.mk.injEq] at e
      exact inj j hj j' hj' e.2.1
  · rw [if_neg hp]; exact List.nodup_nil

theorem tag_per1 {per : Bool} {n m : Nat} {f h : Nat → Nat} {mi dir d : Nat} :
    ∀ a ∈ (if per then (List.range m).map fun j =>
      if n ≤ 1 then Act.close (f j) dir else Act.join false { master := f j, slave := h j, midx := mi, sidx := mi+1, dim := d } else []),
      tag a = (false, dir) ∨ tag a = (true, mi) := by
  intro a ha
  by_cases hp : per = true
  · rw [if_pos hp] at ha
    simp only [List.mem_map] at ha
    obtain ⟨_, _, rfl⟩ := ha
    by_cases hn : n ≤ 1
    · rw [if_pos hn]; exact .inl rfl
    · rw [if_neg hn]; exact .inr rfl
  · rw [if_neg hp] at ha; cases ha

theorem nodup_2D (g : Gen K) (hx : 1 ≤ g.nx) (hy : 1 ≤ g.ny) : (acts2D g).Nodup := by
  have inj : ∀ {i j i' j' : Nat}, i < g.nx → i' < g.nx → j < g.ny → j' < g.ny → ijk g.nx g.ny i j 0 = ijk g.nx g.ny i' j' 0 → j = j' ∧ i = i' := by
    intro i j i' j' h1 h2 h3 h4 e
    obtain ⟨a, b, c⟩ := ijk_inj h1 h2 h3 h4 e
    exact ⟨b, a⟩
  unfold acts2D
  dsimp only
  simp only [List.nodup_append]
  refine ⟨⟨⟨?_, ?_, ?_⟩, nodup_per1 ?_, ?_⟩, nodup_per1 ?_, ?_⟩
  · exact nodup_grid fun j hj i hi j' hj' i' hi' e => by
      simp only [Act.join.injEq, Iface.mk.injEq] at e
      exact inj (by omega) (by omega) hj hj' e.2.1
  · exact nodup_grid fun j hj i hi j' hj' i' hi' e => by
      simp only [Act.join.injEq, Iface.mk.injEq] at e
      exact inj (by omega) (by omega) (by omega) (by omega) e.2.1
  · intro a ha b hb e
    subst e
    simp only [List.mem_flatMap, List.mem_map] at ha hb
    obtain ⟨_, _, _, _, rfl⟩ := ha
    obtain ⟨_, _, _, _, e⟩ := hb
    simp at e
  · exact fun i hi i' hi' e => (inj hx hx hi hi' e).1
  · intro a ha b hb e
    subst e
    rcases tag_per1 a hb with e | e <;>
    · simp only [List.mem_append, List.mem_flatMap, List.mem_map] at ha
      rcases ha with ⟨_, _, _, _, rfl⟩ | ⟨_, _, _, _, rfl⟩ <;> simp [tag] at e
  · exact fun i hi i' hi' e => (inj hi hi' hy hy e).2
  · intro a ha b hb e
    subst e
    rcases List.mem_append.1 ha with ha | ha
    · rcases tag_per1 a hb with e | e <;>
      · simp only [List.mem_append, List.mem_flatMap, List.mem_map] at ha
        rcases ha with ⟨_, _, _, _, rfl⟩ | ⟨_, _, _, _, rfl⟩ <;> simp [tag] at e
    · rcases tag_per1 a hb with e | e <;> rcases tag_per1 a ha with e' | e' <;> rw [e] at e' <;> simp at e'

theorem nodup_1D (g : Gen K) : (acts1D g).Nodup := by
  unfold acts1D
  simp only [List.nodup_append]
  refine ⟨nodup_row fun i hi i' hi' e => ?_, ?_, ?_⟩
  · simp only [Act.join.injEq, Iface.mk.injEq] at e
    omega
  · split
    · split <;> simp
    · simp
  · intro a ha b hb e
    subst e
    obtain ⟨_, _, rfl⟩ := List.mem_map.1 ha
    by_cases hp : g.perX = true
    · rw [if_pos hp] at hb
      by_cases hn : g.nx ≤ 1
      · rw [if_pos hn] at hb; simp at hb
      · rw [if_neg hn] at hb; simp at hb
    · rw [if_neg hp] at hb; cases hb

/-- The coordinates are checked exactly when the master has an upper side. -/
theorem chk_3D {g : Gen K} {chk : Bool} {c : Iface} (h : Act.join chk c ∈ acts3D g) : chk = decide (c.midx % 2 = 0) := by
  rcases mem_3D.1 h with ⟨i, j, k, -, -, -, e⟩ | ⟨i, j, k, -, -, -, e⟩ | ⟨i, j, k, -, -, -, e⟩ | ⟨j, k, -, -, -, -, e⟩ | ⟨j, k, -, -, -, -, e⟩ | ⟨i, k, -, -, -, -, e⟩ |
    ⟨i, k, -, -, -, -, e⟩ | ⟨i, j, -, -, -, -, e⟩ | ⟨i, j, -, -, -, -, e⟩ <;> cases e <;> simp [face]

theorem chk_2D {g : Gen K} {chk : Bool} {c : Iface} (h : Act.join chk c ∈ acts2D g) : chk = decide (c.midx % 2 = 0) := by
  rcases mem_2D.1 h with ⟨i, j, -, -, e⟩ | ⟨i, j, -, -, e⟩ | ⟨j, -, -, -, e⟩ | ⟨j, -, -, -, e⟩ | ⟨i, -, -, -, e⟩ | ⟨i, -, -, -, e⟩ <;> cases e <;> simp [face]

theorem chk_1D {g : Gen K} {chk : Bool} {c : Iface} (h : Act.join chk c ∈ acts1D g) : chk = decide (c.midx % 2 = 0) := by
  rcases mem_1D.1 h with ⟨i, -, e⟩ | ⟨-, -, e⟩ | ⟨-, -, e⟩ <;> cases e <;> simp [face]

theorem mem_joins {l : List Act} {c : Iface} : c ∈ l.filterMap joinOf ↔ ∃ chk, Act.join chk c ∈ l := by
  rw [List.mem_filterMap]
  constructor
  · rintro ⟨a, ha, e⟩
    cases a with
    | join chk c' => cases e; exact ⟨chk, ha⟩
    | close p d => cases e
  · rintro ⟨chk, h⟩
    exact ⟨_, h, rfl⟩

theorem mem_closes {l : List Act} {p d : Nat} : (p, d) ∈ l.filterMap closeOf ↔ Act.close p d ∈ l := by
  rw [List.mem_filterMap]
  constructor
  · rintro ⟨a, ha, e⟩
    cases a with
    | join chk c' => cases e
    | close p d => cases e; exact ha
  · intro h
    exact ⟨_, h, rfl⟩

theorem nodup_joins : ∀ {l : List Act}, l.Nodup → (∀ chk c, Act.join chk c ∈ l → chk = decide (c.midx % 2 = 0)) → (l.filterMap joinOf).Nodup
  | [], _, _ => List.nodup_nil
  | .close p d :: l, hn, h => nodup_joins (l := l) (List.nodup_cons.1 hn).2 fun chk c hc => h chk c (by simp [hc])
  | .join chk c :: l, hn, h => by
    show (c :: l.filterMap joinOf).Nodup
    rw [List.nodup_cons]
    refine ⟨fun hc => ?_, nodup_joins (List.nodup_cons.1 hn).2 fun chk c hc => h chk c (by simp [hc])⟩
    obtain ⟨chk', hc'⟩ := mem_joins.1 hc
    have e1 := h chk c (by simp)
    have e2 := h chk' c (by simp [hc'])
    rw [e2, ← e1] at hc'
    exact (List.nodup_cons.1 hn).1 hc'

theorem nodup_closes : ∀ {l : List Act}, l.Nodup → (l.filterMap closeOf).Nodup
  | [], _ => List.nodup_nil
  | .join chk c :: l, hn => nodup_closes (l := l) (List.nodup_cons.1 hn).2
  | .close p d :: l, hn => by
    show ((p, d) :: l.filterMap closeOf).Nodup
    rw [List.nodup_cons]
    exact ⟨fun hc => (List.nodup_cons.1 hn).1 (mem_closes.1 hc), nodup_closes (List.nodup_cons.1 hn).2⟩

end IFEM.PatchGen
