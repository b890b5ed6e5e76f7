import Verif.Lemmas.TopologyBoundary
import Verif.Props.Topology
/-!
# C56: nodes and elements on the boundary of structured patches
-/
namespace IFEM.Props
open IFEM.Spec IFEM.Topo IFEM.Lag IFEM.Threads

theorem layer_iff {side : Bool} {n thick i : Nat} (h : thick ≤ n) : (i < n ∧ InLayer side n thick i) ↔ ∃ t < thick, i = (if side then n - thick else 0) + t := by
  unfold InLayer
  cases side
  · simp only [Bool.false_eq_true, if_false]
    exact ⟨fun h => ⟨i, h.2, by omega⟩, fun ⟨t, h1, h2⟩ => by omega⟩
  · simp only [if_true]
    exact ⟨fun h => ⟨i - (n-thick), by omega, by omega⟩, fun ⟨t, h1, h2⟩ => by omega⟩

/-- **C56** (surface patches). The boundary nodes returned for a local edge are exactly the nodes in the boundary layer of the requested thickness, each once. -/
theorem C56_edge_nodes (node0 n1 n2 edge thick : Nat) (he : 1 ≤ edge ∧ edge ≤ 4) (h1 : thick ≤ n1) (h2 : thick ≤ n2) :
    (∀ v, v ∈ boundaryNodes2 node0 n1 n2 edge thick ↔ ∃ I J, v = node0 + gridNode2 n1 I J ∧ GridEdge n1 n2 edge thick I J) ∧
    (boundaryNodes2 node0 n1 n2 edge thick).Nodup := by
  have he' : (edge = 1 ∨ edge = 2) ∨ (edge = 3 ∨ edge = 4) := by omega
  rcases he' with hl | hl
  · rw [nodes2_12 _ _ _ _ _ hl]
    have hb : (if edge = 2 then n1-thick else 0) + thick ≤ n1 := by split_ifs <;> omega
    refine ⟨fun v => ?_, ?_⟩
    · simp only [List.mem_flatMap, List.mem_map, List.mem_range]
      constructor
      · rintro ⟨j, hj, t, ht, rfl⟩
        refine ⟨_, j, rfl, by omega, hj, ?_⟩
        rcases hl with rfl | rfl
        · exact .inl ⟨rfl, by simpa [InLayer] using ht⟩
        · exact .inr (.inl ⟨rfl, by simp [InLayer]; omega⟩)
      · rintro ⟨I, J, rfl, hI, hJ, h⟩
        refine ⟨J, hJ, I - (if edge = 2 then n1-thick else 0), ?_, ?_⟩
        · rcases hl with rfl | rfl <;> simp [InLayer] at h ⊢ <;> omega
        · congr 2
          rcases hl with rfl | rfl <;> simp [InLayer] at h ⊢; omega
    · refine nodup_flatMap_inj List.nodup_range (fun j _ => ?_) (fun j _ j' _ x hx hx' => ?_)
      · refine List.Nodup.map_on (fun t ht t' ht' e => ?_) List.nodup_range
        rw [List.mem_range] at ht ht'
        have := (gridNode2_inj (by omega) (by omega) (Nat.add_left_cancel e)).1
        omega
      · simp only [List.mem_map, List.mem_range] at hx hx'
        obtain ⟨t, ht, rfl⟩ := hx
        obtain ⟨t', ht', e⟩ := hx'
        exact (gridNode2_inj (by omega) (by omega) (Nat.add_left_cancel e)).2.symm
  · rw [nodes2_34 _ _ _ _ _ hl]
    refine ⟨fun v => ?_, ?_⟩
    · simp only [List.mem_flatMap, List.mem_map, List.mem_range]
      constructor
      · rintro ⟨i, hi, t, ht, rfl⟩
        refine ⟨i, _, rfl, hi, ?_, ?_⟩
        · split_ifs <;> omega
        · rcases hl with rfl | rfl
          · exact .inr (.inr (.inl ⟨rfl, by simpa [InLayer] using ht⟩))
          · exact .inr (.inr (.inr ⟨rfl, by simp [InLayer]; omega⟩))
      · rintro ⟨I, J, rfl, hI, hJ, h⟩
        refine ⟨I, hI, J - (if edge = 4 then n2-thick else 0), ?_, ?_⟩
        · rcases hl with rfl | rfl <;> simp [InLayer] at h ⊢ <;> omega
        · congr 2
          rcases hl with rfl | rfl <;> simp [InLayer] at h ⊢; omega
    · refine nodup_flatMap_inj List.nodup_range (fun i hi => ?_) (fun i hi i' hi' x hx hx' => ?_)
      · rw [List.mem_range] at hi
        refine List.Nodup.map_on (fun t ht t' ht' e => ?_) List.nodup_range
        have := (gridNode2_inj hi hi (Nat.add_left_cancel e)).2
        omega
      · rw [List.mem_range] at hi hi'
        simp only [List.mem_map, List.mem_range] at hx hx'
        obtain ⟨t, ht, rfl⟩ := hx
        obtain ⟨t', ht', e⟩ := hx'
        exact (gridNode2_inj hi' hi (Nat.add_left_cancel e)).1.symm

/-- The third grid index as the user counts it in a patch whose third direction has been swapped. -/
def userK (swapW : Bool) (n3 K : Nat) : Nat := if swapW then n3 - 1 - K else K

theorem swapFace_grid (swapW : Bool) (n1 n2 n3 face thick I J K : Nat) (hf : 1 ≤ face ∧ face ≤ 6) (h3 : thick ≤ n3) :
    GridFace n1 n2 n3 (swapFace swapW face) thick I J K ∧ K < n3 ↔ GridFace n1 n2 n3 face thick I J (userK swapW n3 K) ∧ K < n3 := by
  cases swapW
  · rfl
  · have : face = 1 ∨ face = 2 ∨ face = 3 ∨ face = 4 ∨ face = 5 ∨ face = 6 := by omega
    rcases this with rfl | rfl | rfl | rfl | rfl | rfl <;> simp [swapFace, GridFace, InLayer, userK] <;> omega

theorem face_nodes (node0 n1 n2 n3 face thick : Nat) (hf : 1 ≤ face ∧ face ≤ 6) (h1 : thick ≤ n1) (h2 : thick ≤ n2) (h3 : thick ≤ n3) :
    (∀ v, v ∈ boundaryNodes3 false node0 n1 n2 n3 face thick ↔ ∃ I J K, v = node0 + gridNode3 n1 n2 I J K ∧ GridFace n1 n2 n3 face thick I J K) ∧
    (boundaryNodes3 false node0 n1 n2 n3 face thick).Nodup := by
  rcases Nat.eq_zero_or_pos thick with rfl | hpos
  · have : boundaryNodes3 false node0 n1 n2 n3 face 0 = [] := by
      have : (face = 1 ∨ face = 2) ∨ (face = 3 ∨ face = 4) ∨ (face = 5 ∨ face = 6) := by omega
      rcases this with hl | hl | hl
      · rw [nodes3_12 _ _ _ _ _ _ hl]; simp
      · rcases Nat.eq_zero_or_pos n2 with rfl | hn
        · unfold boundaryNodes3
          simp only [show swapFace false face = face from rfl, List.range_zero, List.map_nil, List.append_nil]
          rw [if_neg (by omega), if_pos hl]
          have : ∀ (l : List Nat) (S : LoopSt), S.1 = [] → (l.foldl (fun (S : LoopSt) _ =>
              (((List.range n1).foldl (fun (S : LoopSt) _ => (S.1, S.2+1)) S).1, ((List.range n1).foldl (fun (S : LoopSt) _ => (S.1, S.2+1)) S).2 + n1*(0-1))) S).1 = [] := by
            have hin : ∀ (l : List Nat) (S : LoopSt), (l.foldl (fun (S : LoopSt) _ => (S.1, S.2+1)) S).1 = S.1 := by
              intro l; induction l with
              | nil => intro S; rfl
              | cons a l ih => intro S; rw [List.foldl_cons, ih]
            intro l
            induction l with
            | nil => intro S h; exact h
            | cons a l ih => intro S h; rw [List.foldl_cons]; exact ih _ (by show ((List.range n1).foldl _ S).1 = []; rw [hin, h])
          exact this _ _ rfl
        · rw [nodes3_34 _ _ _ _ _ _ hl hn]; simp
      · rw [nodes3_56 _ _ _ _ _ _ hl]; simp
    rw [this]
    refine ⟨fun v => ⟨(fun h => nomatch h), ?_⟩, List.nodup_nil⟩
    rintro ⟨I, J, K, -, a, b, c, h⟩
    simp [InLayer] at h
    omega
  have : (face = 1 ∨ face = 2) ∨ (face = 3 ∨ face = 4) ∨ (face = 5 ∨ face = 6) := by omega
  rcases this with hl | hl | hl
  · rw [nodes3_12 _ _ _ _ _ _ hl]
    have hb : (if face = 2 then n1-thick else 0) + thick ≤ n1 := by split_ifs <;> omega
    refine ⟨fun v => ?_, ?_⟩
    · simp only [List.mem_flatMap, List.mem_map, List.mem_range]
      constructor
      · rintro ⟨k, hk, j, hj, t, ht, rfl⟩
        refine ⟨_, j, k, rfl, by omega, hj, hk, ?_⟩
        rcases hl with rfl | rfl <;> simp [InLayer] <;> omega
      · rintro ⟨I, J, K, rfl, hI, hJ, hK, h⟩
        refine ⟨K, hK, J, hJ, I - (if face = 2 then n1-thick else 0), ?_, ?_⟩
        · rcases hl with rfl | rfl <;> simp [InLayer] at h ⊢ <;> omega
        · congr 2
          rcases hl with rfl | rfl <;> simp [InLayer] at h ⊢; omega
    · refine nodup_flatMap_inj List.nodup_range (fun k _ => nodup_flatMap_inj List.nodup_range (fun j hj => ?_) (fun j hj j' hj' x hx hx' => ?_)) (fun k _ k' _ x hx hx' => ?_)
      · refine List.Nodup.map_on (fun t ht t' ht' e => ?_) List.nodup_range
        rw [List.mem_range] at ht ht' hj
        have := (gridNode3_inj (by omega) (by omega) hj hj (Nat.add_left_cancel e)).1
        omega
      · simp only [List.mem_map, List.mem_range] at hx hx' hj hj'
        obtain ⟨t, ht, rfl⟩ := hx
        obtain ⟨t', ht', e⟩ := hx'
        exact (gridNode3_inj (by omega) (by omega) hj' hj (Nat.add_left_cancel e)).2.1.symm
      · simp only [List.mem_flatMap, List.mem_map, List.mem_range] at hx hx'
        obtain ⟨j, hj, t, ht, rfl⟩ := hx
        obtain ⟨j', hj', t', ht', e⟩ := hx'
        exact (gridNode3_inj (by omega) (by omega) hj' hj (Nat.add_left_cancel e)).2.2.symm
  · rw [nodes3_34 _ _ _ _ _ _ hl (by omega)]
    have hb : (if face = 4 then n2-thick else 0) + thick ≤ n2 := by split_ifs <;> omega
    refine ⟨fun v => ?_, ?_⟩
    · simp only [List.mem_flatMap, List.mem_map, List.mem_range]
      constructor
      · rintro ⟨k, hk, i, hi, t, ht, rfl⟩
        refine ⟨i, _, k, rfl, hi, by omega, hk, ?_⟩
        rcases hl with rfl | rfl <;> simp [InLayer] <;> omega
      · rintro ⟨I, J, K, rfl, hI, hJ, hK, h⟩
        refine ⟨K, hK, I, hI, J - (if face = 4 then n2-thick else 0), ?_, ?_⟩
        · rcases hl with rfl | rfl <;> simp [InLayer] at h ⊢ <;> omega
        · congr 2
          rcases hl with rfl | rfl <;> simp [InLayer] at h ⊢; omega
    · refine nodup_flatMap_inj List.nodup_range (fun k _ => nodup_flatMap_inj List.nodup_range (fun i hi => ?_) (fun i hi i' hi' x hx hx' => ?_)) (fun k _ k' _ x hx hx' => ?_)
      · rw [List.mem_range] at hi
        refine List.Nodup.map_on (fun t ht t' ht' e => ?_) List.nodup_range
        rw [List.mem_range] at ht ht'
        have := (gridNode3_inj hi hi (by omega) (by omega) (Nat.add_left_cancel e)).2.1
        omega
      · simp only [List.mem_map, List.mem_range] at hx hx' hi hi'
        obtain ⟨t, ht, rfl⟩ := hx
        obtain ⟨t', ht', e⟩ := hx'
        exact (gridNode3_inj hi' hi (by omega) (by omega) (Nat.add_left_cancel e)).1.symm
      · simp only [List.mem_flatMap, List.mem_map, List.mem_range] at hx hx'
        obtain ⟨j, hj, t, ht, rfl⟩ := hx
        obtain ⟨j', hj', t', ht', e⟩ := hx'
        exact (gridNode3_inj hj' hj (by omega) (by omega) (Nat.add_left_cancel e)).2.2.symm
  · rw [nodes3_56 _ _ _ _ _ _ hl]
    have hb : (if face = 6 then n3-thick else 0) + thick ≤ n3 := by split_ifs <;> omega
    refine ⟨fun v => ?_, ?_⟩
    · simp only [List.mem_flatMap, List.mem_map, List.mem_range]
      constructor
      · rintro ⟨j, hj, i, hi, t, ht, rfl⟩
        refine ⟨i, j, _, rfl, hi, hj, by omega, ?_⟩
        rcases hl with rfl | rfl <;> simp [InLayer] <;> omega
      · rintro ⟨I, J, K, rfl, hI, hJ, hK, h⟩
        refine ⟨J, hJ, I, hI, K - (if face = 6 then n3-thick else 0), ?_, ?_⟩
        · rcases hl with rfl | rfl <;> simp [InLayer] at h ⊢ <;> omega
        · congr 2
          rcases hl with rfl | rfl <;> simp [InLayer] at h ⊢; omega
    · refine nodup_flatMap_inj List.nodup_range (fun j hj => nodup_flatMap_inj List.nodup_range (fun i hi => ?_) (fun i hi i' hi' x hx hx' => ?_)) (fun j hj j' hj' x hx hx' => ?_)
      · rw [List.mem_range] at hi hj
        refine List.Nodup.map_on (fun t ht t' ht' e => ?_) List.nodup_range
        have := (gridNode3_inj hi hi hj hj (Nat.add_left_cancel e)).2.2
        omega
      · simp only [List.mem_map, List.mem_range] at hx hx' hi hi' hj
        obtain ⟨t, ht, rfl⟩ := hx
        obtain ⟨t', ht', e⟩ := hx'
        exact (gridNode3_inj hi' hi hj hj (Nat.add_left_cancel e)).1.symm
      · simp only [List.mem_flatMap, List.mem_map, List.mem_range] at hx hx' hj hj'
        obtain ⟨i, hi, t, ht, rfl⟩ := hx
        obtain ⟨i', hi', t', ht', e⟩ := hx'
        exact (gridNode3_inj hi' hi hj' hj (Nat.add_left_cancel e)).2.1.symm

/-- **C56** (volume patches). The boundary nodes returned for a local face are exactly the nodes in the boundary layer of the requested thickness, each once; if the third
direction has been swapped, faces 5 and 6 are those at which the user sees the minimum and maximum of that direction. -/
theorem C56_face_nodes (swapW : Bool) (node0 n1 n2 n3 face thick : Nat) (hf : 1 ≤ face ∧ face ≤ 6) (h1 : thick ≤ n1) (h2 : thick ≤ n2) (h3 : thick ≤ n3) :
    (∀ v, v ∈ boundaryNodes3 swapW node0 n1 n2 n3 face thick ↔ ∃ I J K, K < n3 ∧ v = node0 + gridNode3 n1 n2 I J K ∧ GridFace n1 n2 n3 face thick I J (userK swapW n3 K)) ∧
    (boundaryNodes3 swapW node0 n1 n2 n3 face thick).Nodup := by
  rw [nodes3_swap swapW _ _ _ _ _ _ hf.2]
  have hs : 1 ≤ swapFace swapW face ∧ swapFace swapW face ≤ 6 := by unfold swapFace; split_ifs <;> omega
  obtain ⟨a, b⟩ := face_nodes node0 n1 n2 n3 (swapFace swapW face) thick hs h1 h2 h3
  refine ⟨fun v => ?_, b⟩
  rw [a]
  constructor
  · rintro ⟨I, J, K, e, h⟩
    have hK := h.2.2.1
    exact ⟨I, J, K, hK, e, ((swapFace_grid swapW n1 n2 n3 face thick I J K hf h3).1 ⟨h, hK⟩).1⟩
  · rintro ⟨I, J, K, hK, e, h⟩
    exact ⟨I, J, K, e, ((swapFace_grid swapW n1 n2 n3 face thick I J K hf h3).2 ⟨h, hK⟩).1⟩

/-- Grid indices of point `i` of a local edge. -/
def edgePt (n1 n2 n3 edge i : Nat) : Nat × Nat × Nat :=
  match edge with
  | 1 => (i, 0, 0) | 2 => (i, n2-1, 0) | 3 => (i, 0, n3-1) | 4 => (i, n2-1, n3-1)
  | 5 => (0, i, 0) | 6 => (n1-1, i, 0) | 7 => (0, i, n3-1) | 8 => (n1-1, i, n3-1)
  | 9 => (0, 0, i) | 10 => (n1-1, 0, i) | 11 => (0, n2-1, i) | _ => (n1-1, n2-1, i)

theorem edge_pt (node0 n1 n2 n3 edge i : Nat) (he : 1 ≤ edge ∧ edge ≤ 12) (h1 : 0 < n1) (h2 : 0 < n2) (h3 : 0 < n3) :
    edgeStart node0 n1 n2 n3 edge + (edgeRange n1 n2 n3 edge).1*i = node0 + gridNode3 n1 n2 (edgePt n1 n2 n3 edge i).1 (edgePt n1 n2 n3 edge i).2.1 (edgePt n1 n2 n3 edge i).2.2 := by
  obtain ⟨m1, rfl⟩ : ∃ m, n1 = m+1 := ⟨n1-1, by omega⟩
  obtain ⟨m2, rfl⟩ : ∃ m, n2 = m+1 := ⟨n2-1, by omega⟩
  obtain ⟨m3, rfl⟩ : ∃ m, n3 = m+1 := ⟨n3-1, by omega⟩
  have e4 : (m1+1)*((m2+1)*(m3+1)-1) = (m1+1)*(m2 + (m2+1)*m3) := by
    congr 1
    rw [show (m2+1)*(m3+1) = (m2+1)*m3 + m2 + 1 by ring]; omega
  have e8 : (m1+1)*((m2+1)*m3+1) - 1 = m1 + (m1+1)*((m2+1)*m3) := by
    rw [Nat.mul_add]; omega
  have e12 : (m1+1)*(m2+1) - 1 = m1 + (m1+1)*m2 := by
    rw [Nat.mul_add]; omega
  have : edge = 1 ∨ edge = 2 ∨ edge = 3 ∨ edge = 4 ∨ edge = 5 ∨ edge = 6 ∨ edge = 7 ∨ edge = 8 ∨ edge = 9 ∨ edge = 10 ∨ edge = 11 ∨ edge = 12 := by omega
  rcases this with rfl | rfl | rfl | rfl | rfl | rfl | rfl | rfl | rfl | rfl | rfl | rfl <;>
    simp [edgeStart, edgeRange, edgePt, gridNode3, e4, e8, e12] <;> ring

theorem edge_nodes_iff (node0 n1 n2 n3 edge : Nat) (isOpen : Bool) (he : 1 ≤ edge ∧ edge ≤ 12) (h1 : 0 < n1) (h2 : 0 < n2) (h3 : 0 < n3) :
    (∀ v, v ∈ boundary1Nodes3 false node0 n1 n2 n3 edge isOpen ↔ ∃ I J K, v = node0 + gridNode3 n1 n2 I J K ∧
      GridFace n1 n2 n3 (edgeFaces edge).1 1 I J K ∧ GridFace n1 n2 n3 (edgeFaces edge).2 1 I J K ∧
      (isOpen = true → ¬ GridFace n1 n2 n3 (edgeEnds edge).1 1 I J K ∧ ¬ GridFace n1 n2 n3 (edgeEnds edge).2 1 I J K)) ∧
    (boundary1Nodes3 false node0 n1 n2 n3 edge isOpen).Nodup := by
  have hcases : edge = 1 ∨ edge = 2 ∨ edge = 3 ∨ edge = 4 ∨ edge = 5 ∨ edge = 6 ∨ edge = 7 ∨ edge = 8 ∨ edge = 9 ∨ edge = 10 ∨ edge = 11 ∨ edge = 12 := by omega
  rw [edge_nodes]
  have pt_bound : ∀ i < (edgeRange n1 n2 n3 edge).2, (edgePt n1 n2 n3 edge i).1 < n1 ∧ (edgePt n1 n2 n3 edge i).2.1 < n2 := by
    intro i hi
    rcases hcases with rfl | rfl | rfl | rfl | rfl | rfl | rfl | rfl | rfl | rfl | rfl | rfl <;> simp [edgeRange, edgePt] at hi ⊢ <;> omega
  have pt_inj : ∀ i i', edgePt n1 n2 n3 edge i = edgePt n1 n2 n3 edge i' → i = i' := by
    intro i i' h
    rcases hcases with rfl | rfl | rfl | rfl | rfl | rfl | rfl | rfl | rfl | rfl | rfl | rfl <;> simpa [edgePt] using h
  refine ⟨fun v => ?_, ?_⟩
  · simp only [List.mem_map, List.mem_filter, List.mem_range, decide_eq_true_eq]
    constructor
    · rintro ⟨i, ⟨hi, ho⟩, rfl⟩
      refine ⟨_, _, _, edge_pt node0 n1 n2 n3 edge i he h1 h2 h3, ?_⟩
      rcases hcases with rfl | rfl | rfl | rfl | rfl | rfl | rfl | rfl | rfl | rfl | rfl | rfl <;>
        cases isOpen <;> simp [edgeRange, edgePt, edgeFaces, edgeEnds, GridFace, InLayer] at hi ho ⊢ <;> omega
    · rintro ⟨I, J, K, rfl, hf1, hf2, ho⟩
      have key : ∃ i < (edgeRange n1 n2 n3 edge).2, edgePt n1 n2 n3 edge i = (I, J, K) ∧ (isOpen = false ∨ (0 < i ∧ i+1 < (edgeRange n1 n2 n3 edge).2)) := by
        rcases hcases with rfl | rfl | rfl | rfl | rfl | rfl | rfl | rfl | rfl | rfl | rfl | rfl
        iterate 4
          refine ⟨I, ?_, ?_, ?_⟩ <;> cases isOpen <;> simp [edgeRange, edgePt, edgeFaces, edgeEnds, GridFace, InLayer] at hf1 hf2 ho ⊢ <;> omega
        iterate 4
          refine ⟨J, ?_, ?_, ?_⟩ <;> cases isOpen <;> simp [edgeRange, edgePt, edgeFaces, edgeEnds, GridFace, InLayer] at hf1 hf2 ho ⊢ <;> omega
        iterate 4
          refine ⟨K, ?_, ?_, ?_⟩ <;> cases isOpen <;> simp [edgeRange, edgePt, edgeFaces, edgeEnds, GridFace, InLayer] at hf1 hf2 ho ⊢ <;> omega
      obtain ⟨i, hi, hp, ho'⟩ := key
      refine ⟨i, ⟨hi, ho'⟩, ?_⟩
      rw [edge_pt node0 n1 n2 n3 edge i he h1 h2 h3, hp]
  · refine List.Nodup.map_on (fun i hi i' hi' e => ?_) (List.Nodup.filter _ List.nodup_range)
    rw [List.mem_filter, List.mem_range] at hi hi'
    rw [edge_pt node0 n1 n2 n3 edge i he h1 h2 h3, edge_pt node0 n1 n2 n3 edge i' he h1 h2 h3] at e
    obtain ⟨a, b⟩ := pt_bound i hi.1
    obtain ⟨a', b'⟩ := pt_bound i' hi'.1
    obtain ⟨q1, q2, q3⟩ := gridNode3_inj a a' b b' (Nat.add_left_cancel e)
    exact pt_inj i i' (Prod.ext q1 (Prod.ext q2 q3))

theorem swapEdge_faces (edge : Nat) (he : 1 ≤ edge ∧ edge ≤ 12) :
    edgeFaces (swapEdge true edge) = (swapFace true (edgeFaces edge).1, swapFace true (edgeFaces edge).2) ∧
    (edgeEnds (swapEdge true edge) = (swapFace true (edgeEnds edge).1, swapFace true (edgeEnds edge).2) ∨
     edgeEnds (swapEdge true edge) = (swapFace true (edgeEnds edge).2, swapFace true (edgeEnds edge).1)) ∧
    (1 ≤ (edgeFaces edge).1 ∧ (edgeFaces edge).1 ≤ 6) ∧ (1 ≤ (edgeFaces edge).2 ∧ (edgeFaces edge).2 ≤ 6) ∧
    (1 ≤ (edgeEnds edge).1 ∧ (edgeEnds edge).1 ≤ 6) ∧ (1 ≤ (edgeEnds edge).2 ∧ (edgeEnds edge).2 ≤ 6) ∧ 1 ≤ swapEdge true edge ∧ swapEdge true edge ≤ 12 := by
  have : edge = 1 ∨ edge = 2 ∨ edge = 3 ∨ edge = 4 ∨ edge = 5 ∨ edge = 6 ∨ edge = 7 ∨ edge = 8 ∨ edge = 9 ∨ edge = 10 ∨ edge = 11 ∨ edge = 12 := by omega
  rcases this with rfl | rfl | rfl | rfl | rfl | rfl | rfl | rfl | rfl | rfl | rfl | rfl <;> decide

/-- **C56** (edges of volume patches). The nodes returned for a local edge 1..12 are exactly those lying on both of the faces meeting there, each once; if an open edge is
requested those on the faces at the ends of the edge are left out. -/
theorem C56_volume_edge_nodes (swapW : Bool) (node0 n1 n2 n3 edge : Nat) (isOpen : Bool) (he : 1 ≤ edge ∧ edge ≤ 12) (h1 : 0 < n1) (h2 : 0 < n2) (h3 : 0 < n3) :
    (∀ v, v ∈ boundary1Nodes3 swapW node0 n1 n2 n3 edge isOpen ↔ ∃ I J K, K < n3 ∧ v = node0 + gridNode3 n1 n2 I J K ∧
      GridFace n1 n2 n3 (edgeFaces edge).1 1 I J (userK swapW n3 K) ∧ GridFace n1 n2 n3 (edgeFaces edge).2 1 I J (userK swapW n3 K) ∧
      (isOpen = true → ¬ GridFace n1 n2 n3 (edgeEnds edge).1 1 I J (userK swapW n3 K) ∧ ¬ GridFace n1 n2 n3 (edgeEnds edge).2 1 I J (userK swapW n3 K))) ∧
    (boundary1Nodes3 swapW node0 n1 n2 n3 edge isOpen).Nodup := by
  cases swapW
  · obtain ⟨a, b⟩ := edge_nodes_iff node0 n1 n2 n3 edge isOpen he h1 h2 h3
    refine ⟨fun v => ?_, b⟩
    rw [a]
    constructor
    · rintro ⟨I, J, K, e, h⟩
      exact ⟨I, J, K, h.1.2.2.1, e, h⟩
    · rintro ⟨I, J, K, -, e, h⟩
      exact ⟨I, J, K, e, h⟩
  · obtain ⟨s1, s2, f1, f2, g1, g2, hs⟩ := swapEdge_faces edge he
    have hsw : boundary1Nodes3 true node0 n1 n2 n3 edge isOpen = boundary1Nodes3 false node0 n1 n2 n3 (swapEdge true edge) isOpen := rfl
    rw [hsw]
    obtain ⟨a, b⟩ := edge_nodes_iff node0 n1 n2 n3 (swapEdge true edge) isOpen hs h1 h2 h3
    refine ⟨fun v => ?_, b⟩
    rw [a]
    have sf : ∀ face, 1 ≤ face ∧ face ≤ 6 → ∀ I J K, K < n3 → (GridFace n1 n2 n3 (swapFace true face) 1 I J K ↔ GridFace n1 n2 n3 face 1 I J (userK true n3 K)) :=
      fun face hf I J K hK => by
        have := swapFace_grid true n1 n2 n3 face 1 I J K hf h3
        exact ⟨fun h => (this.1 ⟨h, hK⟩).1, fun h => (this.2 ⟨h, hK⟩).1⟩
    rw [s1]
    dsimp only
    have ends : ∀ I J K, K < n3 → ((¬ GridFace n1 n2 n3 (edgeEnds (swapEdge true edge)).1 1 I J K ∧ ¬ GridFace n1 n2 n3 (edgeEnds (swapEdge true edge)).2 1 I J K) ↔
        (¬ GridFace n1 n2 n3 (edgeEnds edge).1 1 I J (userK true n3 K) ∧ ¬ GridFace n1 n2 n3 (edgeEnds edge).2 1 I J (userK true n3 K))) := by
      intro I J K hK
      rcases s2 with s2 | s2 <;> rw [s2] <;> dsimp only <;> rw [sf _ g1 I J K hK, sf _ g2 I J K hK]
      exact and_comm
    constructor
    · rintro ⟨I, J, K, e, h, h', h''⟩
      have hK := h.2.2.1
      exact ⟨I, J, K, hK, e, (sf _ f1 I J K hK).1 h, (sf _ f2 I J K hK).1 h', fun ho => (ends I J K hK).1 (h'' ho)⟩
    · rintro ⟨I, J, K, hK, e, h, h', h''⟩
      exact ⟨I, J, K, e, (sf _ f1 I J K hK).2 h, (sf _ f2 I J K hK).2 h', fun ho => (ends I J K hK).2 (h'' ho)⟩

/-! ### Corners and boundary elements -/

/-- The second grid index as the user counts it in a patch whose second direction has been swapped. -/
def userJ (swapV : Bool) (n2 J : Nat) : Nat := if swapV then n2 - 1 - J else J

/-- **C56** (corners of surface patches). The node returned for the corner with direction indices `±1` is the one lying on both corresponding edges, as the user sees them. -/
theorem C56_corner2 (swapV : Bool) (node0 n1 n2 : Nat) (h1 : 0 < n1) (h2 : 0 < n2) (i j : Bool) :
    ∃ I J, J < n2 ∧ corner2 swapV node0 n1 n2 (if i then 1 else -1) (if j then 1 else -1) = node0 + gridNode2 n1 I J ∧
      GridEdge n1 n2 (if i then 2 else 1) 1 I (userJ swapV n2 J) ∧ GridEdge n1 n2 (if j then 4 else 3) 1 I (userJ swapV n2 J) := by
  refine ⟨if i then n1-1 else 0, if j != swapV then n2-1 else 0, by split <;> omega, ?_, ?_, ?_⟩
  · cases i <;> cases j <;> cases swapV <;> simp [corner2, gridNode2, Nat.add_assoc]
  · cases i <;> cases j <;> cases swapV <;> simp [GridEdge, InLayer, userJ] <;> omega
  · cases i <;> cases j <;> cases swapV <;> simp [GridEdge, InLayer, userJ] <;> omega

/-- **C56** (corners of volume patches). -/
theorem C56_corner3 (swapW : Bool) (node0 n1 n2 n3 : Nat) (h1 : 0 < n1) (h2 : 0 < n2) (h3 : 0 < n3) (i j k : Bool) :
    ∃ I J K, K < n3 ∧ corner3 swapW node0 n1 n2 n3 (if i then 1 else -1) (if j then 1 else -1) (if k then 1 else -1) = node0 + gridNode3 n1 n2 I J K ∧
      GridFace n1 n2 n3 (if i then 2 else 1) 1 I J (userK swapW n3 K) ∧ GridFace n1 n2 n3 (if j then 4 else 3) 1 I J (userK swapW n3 K) ∧
      GridFace n1 n2 n3 (if k then 6 else 5) 1 I J (userK swapW n3 K) := by
  refine ⟨if i then n1-1 else 0, if j then n2-1 else 0, if k != swapW then n3-1 else 0, by split <;> omega, ?_, ?_, ?_, ?_⟩
  · cases i <;> cases j <;> cases k <;> cases swapW <;> simp [corner3, gridNode3] <;> ring
  · cases i <;> cases j <;> cases k <;> cases swapW <;> simp [GridFace, InLayer, userK] <;> omega
  · cases i <;> cases j <;> cases k <;> cases swapW <;> simp [GridFace, InLayer, userK] <;> omega
  · cases i <;> cases j <;> cases k <;> cases swapW <;> simp [GridFace, InLayer, userK] <;> omega

/-- **C56** (counterexample). `getBoundaryNodes` of a surface patch does not account for a swapped second direction, while the corner query does: the upper corners of such a
patch are not among the nodes returned for its upper edge. -/
theorem C56_swapped_surface (n1 n2 : Nat) (h1 : 0 < n1) (h2 : 2 ≤ n2) (i : Bool) :
    corner2 true 1 n1 n2 (if i then 1 else -1) 1 ∉ boundaryNodes2 1 n1 n2 4 1 ∧ corner2 false 1 n1 n2 (if i then 1 else -1) 1 ∈ boundaryNodes2 1 n1 n2 4 1 := by
  have hm := (C56_edge_nodes 1 n1 n2 4 1 (by omega) h1 (by omega)).1
  rw [hm, hm]
  constructor
  · rintro ⟨I, J, e, hI, hJ, h⟩
    simp [InLayer] at h
    have : corner2 true 1 n1 n2 (if i then 1 else -1) 1 = 1 + gridNode2 n1 (if i then n1-1 else 0) 0 := by
      cases i <;> simp [corner2, gridNode2]
    rw [this] at e
    have := (gridNode2_inj (by split <;> omega) hI (Nat.add_left_cancel e)).2
    omega
  · refine ⟨if i then n1-1 else 0, n2-1, by cases i <;> simp [corner2, gridNode2, Nat.add_assoc], by split <;> omega, by omega, ?_⟩
    simp [InLayer]; omega

/-- **C56** (boundary elements of surface patches). The elements returned for a local edge are exactly those of the first or last row or column, each once. -/
theorem C56_edge_elements (N1 N2 edge : Nat) (he : 1 ≤ edge ∧ edge ≤ 4) (h1 : 0 < N1) (h2 : 0 < N2) :
    (∀ v, v ∈ boundaryElms2 N1 N2 edge ↔ ∃ I J, v = gridNode2 N1 I J ∧ GridEdge N1 N2 edge 1 I J) ∧ (boundaryElms2 N1 N2 edge).Nodup := by
  obtain ⟨m2, rfl⟩ : ∃ m, N2 = m+1 := ⟨N2-1, by omega⟩
  have : edge = 1 ∨ edge = 2 ∨ edge = 3 ∨ edge = 4 := by omega
  have inj1 : ∀ c < N1, ∀ i i' : Nat, i*N1 + c = i'*N1 + c → i = i' := fun c hc i i' e =>
    (gridNode2_inj hc hc (show gridNode2 N1 c i = gridNode2 N1 c i' by unfold gridNode2; rw [Nat.mul_comm N1, Nat.mul_comm N1]; omega)).2
  have m1 : ∀ v, (∃ i < m2+1, i*N1 + 0*(N1-1) = v) ↔ ∃ I J, v = gridNode2 N1 I J ∧ GridEdge N1 (m2+1) 1 1 I J := fun v => by
    constructor
    · rintro ⟨j, hj, rfl⟩
      exact ⟨0, j, by unfold gridNode2; rw [Nat.mul_comm j]; omega, h1, hj, .inl ⟨rfl, by simp [InLayer]⟩⟩
    · rintro ⟨I, J, rfl, hI, hJ, h⟩
      simp [InLayer] at h
      exact ⟨J, hJ, by unfold gridNode2; rw [Nat.mul_comm J]; omega⟩
  have m2' : ∀ v, (∃ i < m2+1, i*N1 + 1*(N1-1) = v) ↔ ∃ I J, v = gridNode2 N1 I J ∧ GridEdge N1 (m2+1) 2 1 I J := fun v => by
    constructor
    · rintro ⟨j, hj, rfl⟩
      exact ⟨N1-1, j, by unfold gridNode2; rw [Nat.mul_comm j]; omega, by omega, hj, .inr (.inl ⟨rfl, by simp [InLayer]; omega⟩)⟩
    · rintro ⟨I, J, rfl, hI, hJ, h⟩
      simp [InLayer] at h
      exact ⟨J, hJ, by unfold gridNode2; rw [Nat.mul_comm J]; omega⟩
  have m3 : ∀ v, (∃ i < N1, i + 0*N1*m2 = v) ↔ ∃ I J, v = gridNode2 N1 I J ∧ GridEdge N1 (m2+1) 3 1 I J := fun v => by
    constructor
    · rintro ⟨i, hi, rfl⟩
      exact ⟨i, 0, by simp [gridNode2], hi, by omega, .inr (.inr (.inl ⟨rfl, by simp [InLayer]⟩))⟩
    · rintro ⟨I, J, rfl, hI, hJ, h⟩
      simp [InLayer] at h
      exact ⟨I, hI, by simp [gridNode2, h]⟩
  have m4 : ∀ v, (∃ i < N1, i + 1*N1*m2 = v) ↔ ∃ I J, v = gridNode2 N1 I J ∧ GridEdge N1 (m2+1) 4 1 I J := fun v => by
    constructor
    · rintro ⟨i, hi, rfl⟩
      exact ⟨i, m2, by simp [gridNode2], hi, by omega, .inr (.inr (.inr ⟨rfl, by simp [InLayer]⟩))⟩
    · rintro ⟨I, J, rfl, hI, hJ, h⟩
      simp [InLayer] at h
      obtain rfl : J = m2 := by omega
      exact ⟨I, hI, by simp [gridNode2]⟩
  unfold boundaryElms2
  rcases this with rfl | rfl | rfl | rfl
  · simp only [true_or, if_true]
    exact ⟨fun v => by simpa using m1 v, List.Nodup.map_on (fun i _ i' _ e => inj1 _ (show (1-1)*(N1-1) < N1 by omega) i i' e) List.nodup_range⟩
  · simp only [or_true, if_true]
    exact ⟨fun v => by simpa using m2' v, List.Nodup.map_on (fun i _ i' _ e => inj1 _ (show (2-1)*(N1-1) < N1 by omega) i i' e) List.nodup_range⟩
  · rw [if_neg (by omega), if_pos (by omega)]
    exact ⟨fun v => by simpa using m3 v, List.Nodup.map_on (fun i _ i' _ e => by omega) List.nodup_range⟩
  · rw [if_neg (by omega), if_pos (by omega)]
    exact ⟨fun v => by simpa using m4 v, List.Nodup.map_on (fun i _ i' _ e => by omega) List.nodup_range⟩

theorem elms3_eq (N1 N2 N3 face : Nat) (hf : 1 ≤ face ∧ face ≤ 6) (h2 : 0 < N2) :
    Topo.boundaryElms3 N1 N2 N3 face = boundaryNodes3 false 0 N1 N2 N3 face 1 := by
  have single : ∀ (n : Nat) (f : Nat → Nat), (List.range n).flatMap (fun x => (List.range 1).map fun t => f x + t) = (List.range n).map f := fun n f => by
    rw [List.map_eq_flatMap]; rfl
  have : face = 1 ∨ face = 2 ∨ face = 3 ∨ face = 4 ∨ face = 5 ∨ face = 6 := by omega
  unfold Topo.boundaryElms3
  rcases this with rfl | rfl | rfl | rfl | rfl | rfl
  · rw [if_pos (by omega), nodes3_12 _ _ _ _ _ _ (by omega)]
    refine List.flatMap_congr fun k _ => ?_
    rw [List.map_eq_flatMap]
    refine List.flatMap_congr fun j _ => ?_
    simp [gridNode3]; ring
  · rw [if_pos (by omega), nodes3_12 _ _ _ _ _ _ (by omega)]
    refine List.flatMap_congr fun k _ => ?_
    rw [List.map_eq_flatMap]
    refine List.flatMap_congr fun j _ => ?_
    simp [gridNode3]; ring
  · rw [if_neg (by omega), if_pos (by omega), nodes3_34 _ _ _ _ _ _ (by omega) h2]
    refine List.flatMap_congr fun k _ => ?_
    rw [List.map_eq_flatMap]
    refine List.flatMap_congr fun j _ => ?_
    simp [gridNode3]; ring
  · rw [if_neg (by omega), if_pos (by omega), nodes3_34 _ _ _ _ _ _ (by omega) h2]
    refine List.flatMap_congr fun k _ => ?_
    rw [List.map_eq_flatMap]
    refine List.flatMap_congr fun j _ => ?_
    simp [gridNode3]; ring
  · rw [if_neg (by omega), if_neg (by omega), if_pos (by omega), nodes3_56 _ _ _ _ _ _ (by omega)]
    refine List.flatMap_congr fun k _ => ?_
    rw [List.map_eq_flatMap]
    refine List.flatMap_congr fun j _ => ?_
    simp [gridNode3]; ring
  · rw [if_neg (by omega), if_neg (by omega), if_pos (by omega), nodes3_56 _ _ _ _ _ _ (by omega)]
    refine List.flatMap_congr fun k _ => ?_
    rw [List.map_eq_flatMap]
    refine List.flatMap_congr fun j _ => ?_
    simp [gridNode3]; ring

/-- **C56** (boundary elements of volume patches). The elements returned for a local face are exactly those of the first or last layer of elements, each once. -/
theorem C56_face_elements (N1 N2 N3 face : Nat) (hf : 1 ≤ face ∧ face ≤ 6) (h1 : 0 < N1) (h2 : 0 < N2) (h3 : 0 < N3) :
    (∀ v, v ∈ Topo.boundaryElms3 N1 N2 N3 face ↔ ∃ I J K, v = gridNode3 N1 N2 I J K ∧ GridFace N1 N2 N3 face 1 I J K) ∧ (Topo.boundaryElms3 N1 N2 N3 face).Nodup := by
  rw [elms3_eq _ _ _ _ hf h2]
  obtain ⟨a, b⟩ := face_nodes 0 N1 N2 N3 face 1 hf h1 h2 h3
  exact ⟨fun v => by simpa only [Nat.zero_add] using a v, b⟩

/-- Concrete cases: two layers at face 4 of a 2 x 3 x 2 grid; an open edge of a swapped patch; the elements at face 2. -/
example : boundaryNodes3 false 1 2 3 2 4 2 = [3, 5, 4, 6, 9, 11, 10, 12] ∧ boundary1Nodes3 true 1 4 3 2 1 true = [14, 15] ∧ Topo.boundaryElms3 2 2 2 2 = [1, 3, 5, 7] ∧
    corner3 true 1 4 3 2 1 1 1 = 12 := by decide

end IFEM.Props
