import Verif.Props.Boundary
import Verif.Spec.Connect
/-!
# C57: connection of neighbouring structured patches
-/
namespace IFEM.Props
open IFEM.Spec IFEM.Topo IFEM.Lag IFEM.Threads

/-! ### Surface patches -/

theorem connectLoop2_acc (same : Nat → Nat → Bool) (ms ss : List Nat) (rev : Bool) (is : List Nat) (acc : List (Nat × Nat)) :
    connectLoop2 same ms ss rev is acc =
      (acc ++ (is.map fun i => (ms.getD i 0, ss.getD (if rev then ss.length - i - 1 else i) 0)).takeWhile (fun q => same q.1 q.2),
       (is.map fun i => (ms.getD i 0, ss.getD (if rev then ss.length - i - 1 else i) 0)).all (fun q => same q.1 q.2)) := by
  induction is generalizing acc with
  | nil => simp [connectLoop2]
  | cons i is ih =>
    rw [connectLoop2]
    rw [List.map_cons, List.takeWhile_cons, List.all_cons]
    by_cases h : same (ms.getD i 0) (ss.getD (if rev then ss.length - i - 1 else i) 0) = true
    · simp only [if_pos h, ih, h, if_true, Bool.true_and, List.append_assoc, List.singleton_append]
    · simp only [if_neg h, Bool.not_eq_true] at h ⊢
      simp only [h, Bool.false_and, List.append_nil, Bool.false_eq_true, if_false]

theorem edge_list (n1 n2 : Nat) (swapV : Bool) (edge : Nat) (he : 1 ≤ edge ∧ edge ≤ 4) (h1 : 0 < n1) (h2 : 0 < n2) :
    boundaryNodes2 1 n1 n2 (swapEdge2 swapV edge) 1 = (List.range (edgeLength n1 n2 edge)).map fun s =>
      1 + gridNode2 n1 (edgePoint n1 n2 swapV edge s).1 (edgePoint n1 n2 swapV edge s).2 := by
  have : edge = 1 ∨ edge = 2 ∨ edge = 3 ∨ edge = 4 := by omega
  rw [List.map_eq_flatMap]
  rcases this with rfl | rfl | rfl | rfl
  · rw [nodes2_12 _ _ _ _ _ (by cases swapV <;> simp [swapEdge2])]
    refine List.flatMap_congr fun j _ => ?_
    cases swapV <;> simp [swapEdge2, edgePoint]
  · rw [nodes2_12 _ _ _ _ _ (by cases swapV <;> simp [swapEdge2])]
    refine List.flatMap_congr fun j _ => ?_
    cases swapV <;> simp [swapEdge2, edgePoint]
  · rw [nodes2_34 _ _ _ _ _ (by cases swapV <;> simp [swapEdge2])]
    refine List.flatMap_congr fun j _ => ?_
    cases swapV <;> simp [swapEdge2, edgePoint]
  · rw [nodes2_34 _ _ _ _ _ (by cases swapV <;> simp [swapEdge2])]
    refine List.flatMap_congr fun j _ => ?_
    cases swapV <;> simp [swapEdge2, edgePoint]

/-- The pairs of corresponding nodes of two edges. -/
def edgePairs (p : Surf) (edge : Nat) (q : Surf) (nedge : Nat) (revers : Bool) : List (Nat × Nat) :=
  (List.range (edgeLength q.n1 q.n2 nedge)).map fun s =>
    (1 + gridNode2 q.n1 (edgePoint q.n1 q.n2 q.swapV nedge s).1 (edgePoint q.n1 q.n2 q.swapV nedge s).2,
     1 + gridNode2 p.n1 (edgePoint p.n1 p.n2 p.swapV edge (if revers then edgeLength p.n1 p.n2 edge - 1 - s else s)).1
       (edgePoint p.n1 p.n2 p.swapV edge (if revers then edgeLength p.n1 p.n2 edge - 1 - s else s)).2)

/-- **C57** (surface patches). Two edges can be connected only if they have the same number of nodes; then node `s` of the neighbour's edge is joined with node `s` of this
patch's edge, counted from the other end if reversed, and the connection succeeds exactly if all these pairs of nodes are co-located. The pairs are joined in order up to the
first pair which is not. -/
theorem C57_edges (same : Nat → Nat → Bool) (p q : Surf) (edge nedge : Nat) (he : 1 ≤ edge ∧ edge ≤ 4) (hne : 1 ≤ nedge ∧ nedge ≤ 4)
    (hp1 : 0 < p.n1) (hp2 : 0 < p.n2) (hq1 : 0 < q.n1) (hq2 : 0 < q.n2) (revers : Bool) :
    (edgeLength q.n1 q.n2 nedge ≠ edgeLength p.n1 p.n2 edge → connectPatch2 same p edge q nedge revers 1 = ([], false)) ∧
    (edgeLength q.n1 q.n2 nedge = edgeLength p.n1 p.n2 edge →
      connectPatch2 same p edge q nedge revers 1 = ((edgePairs p edge q nedge revers).takeWhile (fun x => same x.1 x.2), (edgePairs p edge q nedge revers).all fun x => same x.1 x.2)) := by
  unfold connectPatch2
  dsimp only
  rw [edge_list _ _ _ _ he hp1 hp2, edge_list _ _ _ _ hne hq1 hq2]
  have hpos : 0 < edgeLength q.n1 q.n2 nedge := by unfold edgeLength; split <;> assumption
  constructor
  · intro h
    rw [if_pos (.inr (by simpa using h))]
  · intro h
    rw [if_neg (by simp [h]; omega), connectLoop2_acc, List.nil_append]
    have : (List.range ((List.range (edgeLength q.n1 q.n2 nedge)).map fun s =>
        1 + gridNode2 q.n1 (edgePoint q.n1 q.n2 q.swapV nedge s).1 (edgePoint q.n1 q.n2 q.swapV nedge s).2).length).map (fun i =>
          (((List.range (edgeLength q.n1 q.n2 nedge)).map fun s => 1 + gridNode2 q.n1 (edgePoint q.n1 q.n2 q.swapV nedge s).1 (edgePoint q.n1 q.n2 q.swapV nedge s).2).getD i 0,
           ((List.range (edgeLength p.n1 p.n2 edge)).map fun s => 1 + gridNode2 p.n1 (edgePoint p.n1 p.n2 p.swapV edge s).1 (edgePoint p.n1 p.n2 p.swapV edge s).2).getD
            (if revers = true then ((List.range (edgeLength p.n1 p.n2 edge)).map fun s => 1 + gridNode2 p.n1 (edgePoint p.n1 p.n2 p.swapV edge s).1 (edgePoint p.n1 p.n2 p.swapV edge s).2).length - i - 1 else i) 0)) =
        edgePairs p edge q nedge revers := by
      unfold edgePairs
      simp only [List.length_map, List.length_range]
      refine List.map_congr_left fun s hs => ?_
      rw [List.mem_range] at hs
      congr 1
      · simp [List.getD_eq_getElem?_getD, hs]
      · have e : (if revers = true then edgeLength p.n1 p.n2 edge - s - 1 else s) = (if revers = true then edgeLength p.n1 p.n2 edge - 1 - s else s) := by
          split <;> omega
        rw [e]
        have hlt : (if revers = true then edgeLength p.n1 p.n2 edge - 1 - s else s) < edgeLength p.n1 p.n2 edge := by split <;> omega
        rw [List.getD_eq_getElem?_getD, List.getElem?_map, List.getElem?_range hlt]
        rfl
    rw [this]

/-- **C57** (surface patches, one-to-one). In a successful connection every node of each of the two edges takes part in exactly one pair. -/
theorem C57_edges_bijective (p q : Surf) (edge nedge : Nat) (he : 1 ≤ edge ∧ edge ≤ 4) (hne : 1 ≤ nedge ∧ nedge ≤ 4)
    (hp1 : 0 < p.n1) (hp2 : 0 < p.n2) (hq1 : 0 < q.n1) (hq2 : 0 < q.n2) (revers : Bool) (hl : edgeLength q.n1 q.n2 nedge = edgeLength p.n1 p.n2 edge) :
    (edgePairs p edge q nedge revers).map Prod.fst = boundaryNodes2 1 q.n1 q.n2 (swapEdge2 q.swapV nedge) 1 ∧
    ((edgePairs p edge q nedge revers).map Prod.snd).Perm (boundaryNodes2 1 p.n1 p.n2 (swapEdge2 p.swapV edge) 1) := by
  rw [edge_list _ _ _ _ he hp1 hp2, edge_list _ _ _ _ hne hq1 hq2]
  unfold edgePairs
  rw [List.map_map, List.map_map, hl]
  refine ⟨rfl, ?_⟩
  cases revers
  · exact List.Perm.refl _
  · have : (List.range (edgeLength p.n1 p.n2 edge)).map (fun s => edgeLength p.n1 p.n2 edge - 1 - s) = (List.range (edgeLength p.n1 p.n2 edge)).reverse := by
      refine List.ext_getElem (by simp) fun i h1 h2 => ?_
      simp at h1 h2 ⊢
    have h2 := ((List.reverse_perm (List.range (edgeLength p.n1 p.n2 edge)))).map (fun s => 1 + gridNode2 p.n1 (edgePoint p.n1 p.n2 p.swapV edge s).1 (edgePoint p.n1 p.n2 p.swapV edge s).2)
    rw [← this, List.map_map] at h2
    exact h2

/-- **C57** (counterexample, thick connections). With a thickness of two layers and reversed direction, the node in the first layer is joined with a node in the second layer,
and not with the one in the first layer at the mirrored position. -/
theorem C57_thick_reversed : ∃ pairs, connectPatch2 (fun _ _ => true) ⟨3, 2, false⟩ 1 ⟨3, 2, false⟩ 1 true 2 = (pairs, true) ∧
    (1, 5) ∈ pairs ∧ (1, 4) ∉ pairs ∧ 1 = 1 + gridNode2 3 0 0 ∧ 5 = 1 + gridNode2 3 1 1 ∧ 4 = 1 + gridNode2 3 0 1 := by
  refine ⟨[(1, 5), (2, 4), (4, 2), (5, 1)], ?_, ?_, ?_, ?_⟩ <;> decide

/-! ### Volume patches -/

theorem orient_matching (norient n1 n2 m1 m2 i j : Nat) (hn : norient ≤ 7) (hm : (if norient > 3 then (n2, n1) else (n1, n2)) = (m1, m2)) :
    orient norient n1 n2 m1 m2 i j = matching norient m1 m2 i j := by
  have : norient = 0 ∨ norient = 1 ∨ norient = 2 ∨ norient = 3 ∨ norient = 4 ∨ norient = 5 ∨ norient = 6 ∨ norient = 7 := by omega
  rcases this with rfl | rfl | rfl | rfl | rfl | rfl | rfl | rfl <;> simp at hm <;> obtain ⟨rfl, rfl⟩ := hm <;> simp [orient, matching] <;> omega

theorem face_list (n1 n2 n3 face thick : Nat) (hf : 1 ≤ face ∧ face ≤ 6) (h2 : 0 < n2) (a b t : Nat) (ha : a < (faceLengths n1 n2 n3 face).1)
    (hb : b < (faceLengths n1 n2 n3 face).2) (ht : t < thick) :
    (boundaryNodes3 false 1 n1 n2 n3 face thick).getD ((b*(faceLengths n1 n2 n3 face).1 + a)*thick+t) 0 =
      1 + gridNode3 n1 n2 (facePoint n1 n2 n3 face thick a b t).1 (facePoint n1 n2 n3 face thick a b t).2.1 (facePoint n1 n2 n3 face thick a b t).2.2 := by
  have gen : ∀ (m1 m2 : Nat) (g : Nat → Nat → Nat → Nat), a < m1 → b < m2 →
      ((List.range m2).flatMap fun k => (List.range m1).flatMap fun j => (List.range thick).map fun t => g k j t).getD ((b*m1+a)*thick+t) 0 = g b a t := by
    intro m1 m2 g h1 h2
    have e : (b*m1+a)*thick+t = b*(m1*thick) + (a*thick+t) := by ring
    have hlt : a*thick+t < m1*thick := by have := lt2 ht h1; rw [Nat.add_comm, Nat.mul_comm a, Nat.mul_comm m1]; exact this
    rw [List.getD_eq_getElem?_getD, e, flatMap_range_get _ (m1*thick) _ (fun k _ => flatMap_range_length _ thick _ (fun j _ => by simp)) b _ h2 hlt,
      flatMap_range_get _ thick _ (fun j _ => by simp) a t h1 ht]
    simp [ht]
  have : face = 1 ∨ face = 2 ∨ face = 3 ∨ face = 4 ∨ face = 5 ∨ face = 6 := by omega
  rcases this with rfl | rfl | rfl | rfl | rfl | rfl
  · rw [nodes3_12 _ _ _ _ _ _ (by omega)]
    simp [faceLengths] at ha hb ⊢
    have := gen n2 n3 (fun k j t => 1 + gridNode3 n1 n2 (t) j k) ha hb
    rw [List.getD_eq_getElem?_getD] at this
    rw [this]; simp [facePoint]
  · rw [nodes3_12 _ _ _ _ _ _ (by omega)]
    simp [faceLengths] at ha hb ⊢
    have := gen n2 n3 (fun k j t => 1 + gridNode3 n1 n2 (n1-thick+t) j k) ha hb
    rw [List.getD_eq_getElem?_getD] at this
    rw [this]; simp [facePoint]
  · rw [nodes3_34 _ _ _ _ _ _ (by omega) h2]
    simp [faceLengths] at ha hb ⊢
    have := gen n1 n3 (fun k i t => 1 + gridNode3 n1 n2 i t k) ha hb
    rw [List.getD_eq_getElem?_getD] at this
    rw [this]; simp [facePoint]
  · rw [nodes3_34 _ _ _ _ _ _ (by omega) h2]
    simp [faceLengths] at ha hb ⊢
    have := gen n1 n3 (fun k i t => 1 + gridNode3 n1 n2 i (n2-thick+t) k) ha hb
    rw [List.getD_eq_getElem?_getD] at this
    rw [this]; simp [facePoint]
  · rw [nodes3_56 _ _ _ _ _ _ (by omega)]
    simp [faceLengths] at ha hb ⊢
    have := gen n1 n2 (fun k i t => 1 + gridNode3 n1 n2 i k t) ha hb
    rw [List.getD_eq_getElem?_getD] at this
    rw [this]; simp [facePoint]
  · rw [nodes3_56 _ _ _ _ _ _ (by omega)]
    simp [faceLengths] at ha hb ⊢
    have := gen n1 n2 (fun k i t => 1 + gridNode3 n1 n2 i k (n3-thick+t)) ha hb
    rw [List.getD_eq_getElem?_getD] at this
    rw [this]; simp [facePoint]

theorem connectOne3_fold (same : Nat → Nat → Bool) (l : List (Nat × Nat)) (S : List (Nat × Nat) × Nat) :
    l.foldl (fun S q => connectOne3 same q.1 q.2 S) S = (S.1 ++ l.filter (fun q => same q.1 q.2), S.2 + (l.filter fun q => !same q.1 q.2).length) := by
  induction l generalizing S with
  | nil => simp
  | cons q l ih =>
    rw [List.foldl_cons, ih]
    unfold connectOne3
    by_cases h : same q.1 q.2 = true
    · simp [h]
    · simp at h; simp [h]; omega

/-- The pairs of corresponding nodes of two faces: for every position `(i, j)` and layer `t` of the neighbour's face, its node and the node of this patch at the matching position. -/
def facePairs (p : Vol) (face : Nat) (q : Vol) (nface norient thick : Nat) : List (Nat × Nat) :=
  (List.range (faceLengths q.n1 q.n2 q.n3 nface).2).flatMap fun j => (List.range (faceLengths q.n1 q.n2 q.n3 nface).1).flatMap fun i => (List.range thick).map fun t =>
    let x := facePoint q.n1 q.n2 q.n3 nface thick i j t
    let m := matching norient (faceLengths p.n1 p.n2 p.n3 face).1 (faceLengths p.n1 p.n2 p.n3 face).2 i j
    let y := facePoint p.n1 p.n2 p.n3 face thick m.1 m.2 t
    (1 + gridNode3 q.n1 q.n2 x.1 x.2.1 x.2.2, 1 + gridNode3 p.n1 p.n2 y.1 y.2.1 y.2.2)

theorem matching_bound {norient m1 m2 n1 n2 i j : Nat} (hn : norient ≤ 7) (hm : (if norient > 3 then (n2, n1) else (n1, n2)) = (m1, m2)) (hi : i < n1) (hj : j < n2) :
    (matching norient m1 m2 i j).1 < m1 ∧ (matching norient m1 m2 i j).2 < m2 := by
  have : norient = 0 ∨ norient = 1 ∨ norient = 2 ∨ norient = 3 ∨ norient = 4 ∨ norient = 5 ∨ norient = 6 ∨ norient = 7 := by omega
  rcases this with rfl | rfl | rfl | rfl | rfl | rfl | rfl | rfl <;> simp at hm <;> obtain ⟨rfl, rfl⟩ := hm <;> simp [matching] <;> omega

theorem faceSize_eq (p : Vol) (face : Nat) (hf : 1 ≤ face ∧ face ≤ 6) : faceSize p face = faceLengths p.n1 p.n2 p.n3 face := by
  have : face = 1 ∨ face = 2 ∨ face = 3 ∨ face = 4 ∨ face = 5 ∨ face = 6 := by omega
  rcases this with rfl | rfl | rfl | rfl | rfl | rfl <;> rfl

/-- **C57** (volume patches). For patches whose third direction has not been swapped: two faces can be connected only if their sizes match under the orientation flag; then each
node of the neighbour's face (in each of the layers) is joined with the node of this patch at the matching position in the same layer, provided they are co-located, and the connection
succeeds exactly if all pairs are. -/
theorem C57_faces (same : Nat → Nat → Bool) (p q : Vol) (face nface norient thick : Nat) (hf : 1 ≤ face ∧ face ≤ 6) (hnf : 1 ≤ nface ∧ nface ≤ 6)
    (hp : 0 < p.n1 ∧ 0 < p.n2 ∧ 0 < p.n3) (hq : 0 < q.n1 ∧ 0 < q.n2 ∧ 0 < q.n3) (hsp : p.swapW = false) (hsq : q.swapW = false) :
    (norient > 7 ∨ (if norient > 3 then ((faceLengths q.n1 q.n2 q.n3 nface).2, (faceLengths q.n1 q.n2 q.n3 nface).1) else faceLengths q.n1 q.n2 q.n3 nface) ≠ faceLengths p.n1 p.n2 p.n3 face →
      connectPatch3 same p face q nface norient thick = ([], false)) ∧
    (norient ≤ 7 → (if norient > 3 then ((faceLengths q.n1 q.n2 q.n3 nface).2, (faceLengths q.n1 q.n2 q.n3 nface).1) else faceLengths q.n1 q.n2 q.n3 nface) = faceLengths p.n1 p.n2 p.n3 face →
      connectPatch3 same p face q nface norient thick =
        ((facePairs p face q nface norient thick).filter (fun x => same x.1 x.2), (facePairs p face q nface norient thick).all fun x => same x.1 x.2)) := by
  unfold connectPatch3 connectBasis3
  rw [hsp, hsq, show swapFace false face = face from rfl, show swapFace false nface = nface from rfl, faceSize_eq p face hf, faceSize_eq q nface hnf]
  dsimp only
  have hpos : 0 < (faceLengths q.n1 q.n2 q.n3 nface).1 ∧ 0 < (faceLengths q.n1 q.n2 q.n3 nface).2 := by unfold faceLengths; split_ifs <;> omega
  constructor
  · intro h
    by_cases hn : norient > 7
    · rw [if_pos hn]
    · rw [if_neg hn, if_pos (.inr (.inr (h.resolve_left hn)))]
  · intro hn hm
    rw [if_neg (by omega)]
    have hz : ¬ ((if norient > 3 then ((faceLengths q.n1 q.n2 q.n3 nface).2, (faceLengths q.n1 q.n2 q.n3 nface).1) else faceLengths q.n1 q.n2 q.n3 nface).1 = 0 ∨
        (if norient > 3 then ((faceLengths q.n1 q.n2 q.n3 nface).2, (faceLengths q.n1 q.n2 q.n3 nface).1) else faceLengths q.n1 q.n2 q.n3 nface).2 = 0 ∨
        (if norient > 3 then ((faceLengths q.n1 q.n2 q.n3 nface).2, (faceLengths q.n1 q.n2 q.n3 nface).1) else faceLengths q.n1 q.n2 q.n3 nface) ≠ faceLengths p.n1 p.n2 p.n3 face) := by
      intro hc
      rcases hc with hc | hc | hc
      · split at hc <;> omega
      · split at hc <;> omega
      · exact hc hm
    rw [if_neg hz]
    have hm' : (if norient > 3 then ((faceLengths q.n1 q.n2 q.n3 nface).2, (faceLengths q.n1 q.n2 q.n3 nface).1) else ((faceLengths q.n1 q.n2 q.n3 nface).1, (faceLengths q.n1 q.n2 q.n3 nface).2)) =
        ((faceLengths p.n1 p.n2 p.n3 face).1, (faceLengths p.n1 p.n2 p.n3 face).2) := hm
    have hfold : (List.range (faceLengths q.n1 q.n2 q.n3 nface).2).foldl (fun S j => (List.range (faceLengths q.n1 q.n2 q.n3 nface).1).foldl (fun S i => (List.range thick).foldl (fun S t =>
        connectOne3 same ((boundaryNodes3 false 1 q.n1 q.n2 q.n3 nface thick).getD ((j*(faceLengths q.n1 q.n2 q.n3 nface).1+i)*thick+t) 0)
          ((boundaryNodes3 false 1 p.n1 p.n2 p.n3 face thick).getD
            (((orient norient (faceLengths q.n1 q.n2 q.n3 nface).1 (faceLengths q.n1 q.n2 q.n3 nface).2 (faceLengths p.n1 p.n2 p.n3 face).1 (faceLengths p.n1 p.n2 p.n3 face).2 i j).2*(faceLengths p.n1 p.n2 p.n3 face).1 +
              (orient norient (faceLengths q.n1 q.n2 q.n3 nface).1 (faceLengths q.n1 q.n2 q.n3 nface).2 (faceLengths p.n1 p.n2 p.n3 face).1 (faceLengths p.n1 p.n2 p.n3 face).2 i j).1)*thick+t) 0) S) S) S) ([], 0) =
        (facePairs p face q nface norient thick).foldl (fun S x => connectOne3 same x.1 x.2 S) ([], 0) := by
      unfold facePairs
      rw [List.foldl_flatMap]
      refine List.foldl_ext _ _ _ fun S j hj => ?_
      rw [List.foldl_flatMap]
      refine List.foldl_ext _ _ _ fun S i hi => ?_
      rw [List.foldl_map]
      refine List.foldl_ext _ _ _ fun S t ht => ?_
      rw [List.mem_range] at hi hj ht
      dsimp only
      obtain ⟨b1, b2⟩ := matching_bound hn hm' hi hj
      rw [orient_matching norient _ _ _ _ i j hn hm', face_list q.n1 q.n2 q.n3 nface thick hnf hq.2.1 i j t hi hj ht,
        face_list p.n1 p.n2 p.n3 face thick hf hp.2.1 _ _ t b1 b2 ht]
    rw [hfold, connectOne3_fold]
    dsimp only
    rw [List.nil_append, Nat.zero_add]
    congr 1
    generalize facePairs p face q nface norient thick = l
    induction l with
    | nil => rfl
    | cons x l ih =>
      rw [List.all_cons]
      by_cases h : same x.1 x.2 = true
      · rw [List.filter_cons_of_neg (by simp [h]), h, Bool.true_and]; exact ih
      · simp at h
        rw [List.filter_cons_of_pos (by simp [h]), h, Bool.false_and]; simp

theorem matching_inj {norient m1 m2 n1 n2 i j i' j' : Nat} (hn : norient ≤ 7) (hm : (if norient > 3 then (n2, n1) else (n1, n2)) = (m1, m2)) (hi : i < n1) (hj : j < n2)
    (hi' : i' < n1) (hj' : j' < n2) (h : matching norient m1 m2 i j = matching norient m1 m2 i' j') : i = i' ∧ j = j' := by
  have : norient = 0 ∨ norient = 1 ∨ norient = 2 ∨ norient = 3 ∨ norient = 4 ∨ norient = 5 ∨ norient = 6 ∨ norient = 7 := by omega
  rcases this with rfl | rfl | rfl | rfl | rfl | rfl | rfl | rfl <;> simp at hm <;> obtain ⟨rfl, rfl⟩ := hm <;> simp [matching] at h <;> omega

theorem facePoint_inj {n1 n2 n3 face thick a b t a' b' t' : Nat} (h : facePoint n1 n2 n3 face thick a b t = facePoint n1 n2 n3 face thick a' b' t') :
    a = a' ∧ b = b' ∧ t = t' := by
  unfold facePoint at h
  split_ifs at h <;> simp only [Prod.mk.injEq] at h <;> omega

theorem facePoint_bound {n1 n2 n3 face thick a b t : Nat} (hf : 1 ≤ face ∧ face ≤ 6) (h1 : thick ≤ n1) (h2 : thick ≤ n2) (h3 : thick ≤ n3)
    (ha : a < (faceLengths n1 n2 n3 face).1) (hb : b < (faceLengths n1 n2 n3 face).2) (ht : t < thick) :
    (facePoint n1 n2 n3 face thick a b t).1 < n1 ∧ (facePoint n1 n2 n3 face thick a b t).2.1 < n2 ∧ (facePoint n1 n2 n3 face thick a b t).2.2 < n3 ∧
      GridFace n1 n2 n3 face thick (facePoint n1 n2 n3 face thick a b t).1 (facePoint n1 n2 n3 face thick a b t).2.1 (facePoint n1 n2 n3 face thick a b t).2.2 := by
  have : face = 1 ∨ face = 2 ∨ face = 3 ∨ face = 4 ∨ face = 5 ∨ face = 6 := by omega
  rcases this with rfl | rfl | rfl | rfl | rfl | rfl <;> simp [faceLengths] at ha hb <;> simp [facePoint, GridFace, InLayer] <;> omega

theorem faceLengths_length (n1 n2 n3 face thick : Nat) (hf : 1 ≤ face ∧ face ≤ 6) (h2 : 0 < n2) :
    (boundaryNodes3 false 1 n1 n2 n3 face thick).length = (faceLengths n1 n2 n3 face).1*(faceLengths n1 n2 n3 face).2*thick := by
  have gen : ∀ (m1 m2 : Nat) (g : Nat → Nat → Nat → Nat),
      ((List.range m2).flatMap fun k => (List.range m1).flatMap fun j => (List.range thick).map fun t => g k j t).length = m1*m2*thick := by
    intro m1 m2 g
    rw [flatMap_range_length _ (m1*thick) _ (fun k _ => flatMap_range_length _ thick _ (fun j _ => by simp))]; ring
  have : face = 1 ∨ face = 2 ∨ face = 3 ∨ face = 4 ∨ face = 5 ∨ face = 6 := by omega
  rcases this with rfl | rfl | rfl | rfl | rfl | rfl
  · rw [nodes3_12 _ _ _ _ _ _ (by omega), gen]; rfl
  · rw [nodes3_12 _ _ _ _ _ _ (by omega), gen]; rfl
  · rw [nodes3_34 _ _ _ _ _ _ (by omega) h2, gen]; rfl
  · rw [nodes3_34 _ _ _ _ _ _ (by omega) h2, gen]; rfl
  · rw [nodes3_56 _ _ _ _ _ _ (by omega), gen]; rfl
  · rw [nodes3_56 _ _ _ _ _ _ (by omega), gen]; rfl

/-- **C57** (volume patches, one-to-one). Every node of each of the two faces (in all layers) takes part in exactly one pair. -/
theorem C57_faces_bijective (p q : Vol) (face nface norient thick : Nat) (hf : 1 ≤ face ∧ face ≤ 6) (hnf : 1 ≤ nface ∧ nface ≤ 6)
    (hp : thick ≤ p.n1 ∧ thick ≤ p.n2 ∧ thick ≤ p.n3) (hq : thick ≤ q.n1 ∧ thick ≤ q.n2 ∧ thick ≤ q.n3) (ht : 0 < thick) (hn : norient ≤ 7)
    (hm : (if norient > 3 then ((faceLengths q.n1 q.n2 q.n3 nface).2, (faceLengths q.n1 q.n2 q.n3 nface).1) else faceLengths q.n1 q.n2 q.n3 nface) = faceLengths p.n1 p.n2 p.n3 face) :
    ((facePairs p face q nface norient thick).map Prod.fst).Perm (boundaryNodes3 false 1 q.n1 q.n2 q.n3 nface thick) ∧
    ((facePairs p face q nface norient thick).map Prod.snd).Perm (boundaryNodes3 false 1 p.n1 p.n2 p.n3 face thick) := by
  have hm' : (if norient > 3 then ((faceLengths q.n1 q.n2 q.n3 nface).2, (faceLengths q.n1 q.n2 q.n3 nface).1) else ((faceLengths q.n1 q.n2 q.n3 nface).1, (faceLengths q.n1 q.n2 q.n3 nface).2)) =
      ((faceLengths p.n1 p.n2 p.n3 face).1, (faceLengths p.n1 p.n2 p.n3 face).2) := hm
  have hlen : (facePairs p face q nface norient thick).length = (faceLengths q.n1 q.n2 q.n3 nface).1*(faceLengths q.n1 q.n2 q.n3 nface).2*thick := by
    unfold facePairs
    rw [flatMap_range_length _ ((faceLengths q.n1 q.n2 q.n3 nface).1*thick) _ (fun k _ => flatMap_range_length _ thick _ (fun j _ => by simp))]; ring
  have hsz : (faceLengths q.n1 q.n2 q.n3 nface).1*(faceLengths q.n1 q.n2 q.n3 nface).2 = (faceLengths p.n1 p.n2 p.n3 face).1*(faceLengths p.n1 p.n2 p.n3 face).2 := by
    rw [← hm]
    split
    · exact Nat.mul_comm _ _
    · rfl
  constructor
  · have hnd : ((facePairs p face q nface norient thick).map Prod.fst).Nodup := by
      unfold facePairs
      simp only [List.map_flatMap, List.map_map]
      refine nodup_flatMap_inj List.nodup_range (fun j hj => nodup_flatMap_inj List.nodup_range (fun i hi => ?_) (fun i hi i' hi' x hx hx' => ?_)) (fun j hj j' hj' x hx hx' => ?_)
      · rw [List.mem_range] at hi hj
        refine List.Nodup.map_on (fun t ht t' ht' e => ?_) List.nodup_range
        rw [List.mem_range] at ht ht'
        obtain ⟨a1, a2, -, -⟩ := facePoint_bound hnf hq.1 hq.2.1 hq.2.2 hi hj ht
        obtain ⟨b1, b2, -, -⟩ := facePoint_bound hnf hq.1 hq.2.1 hq.2.2 hi hj ht'
        obtain ⟨c1, c2, c3⟩ := gridNode3_inj a1 b1 a2 b2 (Nat.add_left_cancel e)
        exact (facePoint_inj (Prod.ext c1 (Prod.ext c2 c3))).2.2
      · simp only [List.mem_map, List.mem_range, Function.comp] at hi hi' hj hx hx'
        obtain ⟨t, ht, rfl⟩ := hx
        obtain ⟨t', ht', e⟩ := hx'
        obtain ⟨a1, a2, -, -⟩ := facePoint_bound hnf hq.1 hq.2.1 hq.2.2 hi hj ht
        obtain ⟨b1, b2, -, -⟩ := facePoint_bound hnf hq.1 hq.2.1 hq.2.2 hi' hj ht'
        obtain ⟨c1, c2, c3⟩ := gridNode3_inj b1 a1 b2 a2 (Nat.add_left_cancel e)
        exact (facePoint_inj (Prod.ext c1 (Prod.ext c2 c3))).1.symm
      · simp only [List.mem_flatMap, List.mem_map, List.mem_range, Function.comp] at hj hj' hx hx'
        obtain ⟨i, hi, t, ht, rfl⟩ := hx
        obtain ⟨i', hi', t', ht', e⟩ := hx'
        obtain ⟨a1, a2, -, -⟩ := facePoint_bound hnf hq.1 hq.2.1 hq.2.2 hi hj ht
        obtain ⟨b1, b2, -, -⟩ := facePoint_bound hnf hq.1 hq.2.1 hq.2.2 hi' hj' ht'
        obtain ⟨c1, c2, c3⟩ := gridNode3_inj b1 a1 b2 a2 (Nat.add_left_cancel e)
        exact (facePoint_inj (Prod.ext c1 (Prod.ext c2 c3))).2.1.symm
    refine (List.subperm_of_subset hnd fun v hv => ?_).perm_of_length_le ?_
    · simp only [facePairs, List.map_flatMap, List.map_map, List.mem_flatMap, List.mem_map, List.mem_range, Function.comp] at hv
      obtain ⟨j, hj, i, hi, t, ht, rfl⟩ := hv
      obtain ⟨-, -, -, g⟩ := facePoint_bound hnf hq.1 hq.2.1 hq.2.2 hi hj ht
      exact ((face_nodes 1 q.n1 q.n2 q.n3 nface thick hnf hq.1 hq.2.1 hq.2.2).1 _).2 ⟨_, _, _, rfl, g⟩
    · rw [faceLengths_length _ _ _ _ _ hnf (by omega), List.length_map, hlen]
  · have hnd : ((facePairs p face q nface norient thick).map Prod.snd).Nodup := by
      unfold facePairs
      simp only [List.map_flatMap, List.map_map]
      refine nodup_flatMap_inj List.nodup_range (fun j hj => nodup_flatMap_inj List.nodup_range (fun i hi => ?_) (fun i hi i' hi' x hx hx' => ?_)) (fun j hj j' hj' x hx hx' => ?_)
      · rw [List.mem_range] at hi hj
        refine List.Nodup.map_on (fun t ht t' ht' e => ?_) List.nodup_range
        rw [List.mem_range] at ht ht'
        obtain ⟨m1, m2⟩ := matching_bound hn hm' hi hj
        obtain ⟨a1, a2, -, -⟩ := facePoint_bound hf hp.1 hp.2.1 hp.2.2 m1 m2 ht
        obtain ⟨b1, b2, -, -⟩ := facePoint_bound hf hp.1 hp.2.1 hp.2.2 m1 m2 ht'
        obtain ⟨c1, c2, c3⟩ := gridNode3_inj a1 b1 a2 b2 (Nat.add_left_cancel e)
        exact (facePoint_inj (Prod.ext c1 (Prod.ext c2 c3))).2.2
      · simp only [List.mem_map, List.mem_range, Function.comp] at hi hi' hj hx hx'
        obtain ⟨t, ht, rfl⟩ := hx
        obtain ⟨t', ht', e⟩ := hx'
        obtain ⟨m1, m2⟩ := matching_bound hn hm' hi hj
        obtain ⟨m1', m2'⟩ := matching_bound hn hm' hi' hj
        obtain ⟨a1, a2, -, -⟩ := facePoint_bound hf hp.1 hp.2.1 hp.2.2 m1 m2 ht
        obtain ⟨b1, b2, -, -⟩ := facePoint_bound hf hp.1 hp.2.1 hp.2.2 m1' m2' ht'
        obtain ⟨c1, c2, c3⟩ := gridNode3_inj b1 a1 b2 a2 (Nat.add_left_cancel e)
        obtain ⟨d1, d2, -⟩ := facePoint_inj (Prod.ext c1 (Prod.ext c2 c3))
        exact (matching_inj hn hm' hi' hj hi hj (Prod.ext d1 d2)).1.symm
      · simp only [List.mem_flatMap, List.mem_map, List.mem_range, Function.comp] at hj hj' hx hx'
        obtain ⟨i, hi, t, ht, rfl⟩ := hx
        obtain ⟨i', hi', t', ht', e⟩ := hx'
        obtain ⟨m1, m2⟩ := matching_bound hn hm' hi hj
        obtain ⟨m1', m2'⟩ := matching_bound hn hm' hi' hj'
        obtain ⟨a1, a2, -, -⟩ := facePoint_bound hf hp.1 hp.2.1 hp.2.2 m1 m2 ht
        obtain ⟨b1, b2, -, -⟩ := facePoint_bound hf hp.1 hp.2.1 hp.2.2 m1' m2' ht'
        obtain ⟨c1, c2, c3⟩ := gridNode3_inj b1 a1 b2 a2 (Nat.add_left_cancel e)
        obtain ⟨d1, d2, -⟩ := facePoint_inj (Prod.ext c1 (Prod.ext c2 c3))
        exact (matching_inj hn hm' hi' hj' hi hj (Prod.ext d1 d2)).2.symm
    refine (List.subperm_of_subset hnd fun v hv => ?_).perm_of_length_le ?_
    · simp only [facePairs, List.map_flatMap, List.map_map, List.mem_flatMap, List.mem_map, List.mem_range, Function.comp] at hv
      obtain ⟨j, hj, i, hi, t, ht, rfl⟩ := hv
      obtain ⟨m1, m2⟩ := matching_bound hn hm' hi hj
      obtain ⟨-, -, -, g⟩ := facePoint_bound hf hp.1 hp.2.1 hp.2.2 m1 m2 ht
      exact ((face_nodes 1 p.n1 p.n2 p.n3 face thick hf hp.1 hp.2.1 hp.2.2).1 _).2 ⟨_, _, _, rfl, g⟩
    · rw [faceLengths_length _ _ _ _ _ hf (by omega), List.length_map, hlen, hsz]

/-- **C57** (counterexample, swapped volume patches). When a patch whose third direction has been swapped is connected at its face 5 (or 6), the swapping is accounted for twice:
the nodes joined with the neighbour are those of the opposite face, none of which is among the boundary nodes of the requested face. -/
theorem C57_swapped_volume : ∃ pairs, connectPatch3 (fun _ _ => true) ⟨2, 2, 3, true⟩ 5 ⟨2, 2, 3, false⟩ 6 0 1 = (pairs, true) ∧ pairs.length = 4 ∧
    ∀ x ∈ pairs, x.2 ∉ boundaryNodes3 true 1 2 2 3 5 1 ∧ x.2 ∈ boundaryNodes3 true 1 2 2 3 6 1 := by
  refine ⟨[(9, 1), (10, 2), (11, 3), (12, 4)], ?_, ?_, ?_⟩ <;> decide

/-- Concrete connections: a reversed edge, and two faces with both directions swapped and the first one reversed. -/
example : connectPatch2 (fun _ _ => true) ⟨2, 3, false⟩ 2 ⟨3, 2, false⟩ 3 true 1 = ([(1, 6), (2, 4), (3, 2)], true) := by decide

example : connectPatch3 (fun _ _ => true) ⟨2, 3, 2, false⟩ 1 ⟨2, 3, 2, false⟩ 5 6 1 = ([(1, 5), (2, 11), (3, 3), (4, 9), (5, 1), (6, 7)], true) := by decide

end IFEM.Props
