import Verif.Lemmas.Topology
import Verif.Lemmas.LagrangeBasis
/-!
# Lemmas on boundary nodes
-/
namespace IFEM.Topo
open IFEM.Spec IFEM.Threads IFEM.Lag

theorem fold_run (g : Nat → List Nat) (s : Nat) (n : Nat) (S : LoopSt) :
    (List.range n).foldl (fun (S : LoopSt) _ => (S.1 ++ g S.2, S.2 + s)) S = (S.1 ++ (List.range n).flatMap (fun i => g (S.2 + s*i)), S.2 + s*n) := by
  induction n with
  | zero => simp
  | succ n ih =>
    rw [List.range_succ, List.foldl_append, ih, List.flatMap_append]
    simp only [List.foldl_cons, List.foldl_nil, List.flatMap_cons, List.flatMap_nil, List.append_nil, List.append_assoc, Nat.mul_add, Nat.mul_one, Nat.add_assoc]

theorem nodes2_12 (node0 n1 n2 l thick : Nat) (h : l = 1 ∨ l = 2) :
    boundaryNodes2 node0 n1 n2 l thick = (List.range n2).flatMap fun j => (List.range thick).map fun t => node0 + gridNode2 n1 ((if l = 2 then n1-thick else 0) + t) j := by
  unfold boundaryNodes2
  rw [if_pos h, fold_run (fun x => (List.range thick).map fun t => x + t)]
  dsimp only
  rw [List.nil_append]
  refine List.flatMap_congr fun j _ => List.map_congr_left fun t _ => ?_
  unfold gridNode2
  split_ifs <;> omega

theorem nodes2_34 (node0 n1 n2 l thick : Nat) (h : l = 3 ∨ l = 4) :
    boundaryNodes2 node0 n1 n2 l thick = (List.range n1).flatMap fun i => (List.range thick).map fun t => node0 + gridNode2 n1 i ((if l = 4 then n2-thick else 0) + t) := by
  unfold boundaryNodes2
  rw [if_neg (by omega), if_pos h, fold_run (fun x => (List.range thick).map fun t => x + t*n1)]
  dsimp only
  rw [List.nil_append]
  refine List.flatMap_congr fun j _ => List.map_congr_left fun t _ => ?_
  unfold gridNode2
  rw [Nat.mul_add]
  split_ifs
  · rw [Nat.mul_comm t]; omega
  · rw [Nat.mul_comm t]; omega

theorem nodes3_12 (node0 n1 n2 n3 l thick : Nat) (h : l = 1 ∨ l = 2) :
    boundaryNodes3 false node0 n1 n2 n3 l thick = (List.range n3).flatMap fun k => (List.range n2).flatMap fun j => (List.range thick).map fun t =>
      node0 + gridNode3 n1 n2 ((if l = 2 then n1-thick else 0) + t) j k := by
  unfold boundaryNodes3
  dsimp only
  rw [show swapFace false l = l from rfl, if_pos h]
  have e : (fun (S : LoopSt) (_ : Nat) => (List.range n2).foldl (fun (S : LoopSt) _ => (S.1 ++ (List.range thick).map fun t => S.2 + t, S.2 + n1)) S) =
      fun S _ => (S.1 ++ (List.range n2).flatMap (fun i => (List.range thick).map fun t => (S.2 + n1*i) + t), S.2 + n1*n2) := by
    funext S _
    rw [fold_run (fun x => (List.range thick).map fun t => x + t)]
  rw [e, fold_run (fun x => (List.range n2).flatMap (fun i => (List.range thick).map fun t => (x + n1*i) + t))]
  dsimp only
  rw [List.nil_append]
  refine List.flatMap_congr fun k _ => List.flatMap_congr fun j _ => List.map_congr_left fun t _ => ?_
  unfold gridNode3
  rw [Nat.mul_add, Nat.mul_assoc]
  split_ifs <;> omega

theorem nodes3_34 (node0 n1 n2 n3 l thick : Nat) (h : l = 3 ∨ l = 4) (hn : 0 < n2) :
    boundaryNodes3 false node0 n1 n2 n3 l thick = (List.range n3).flatMap fun k => (List.range n1).flatMap fun i => (List.range thick).map fun t =>
      node0 + gridNode3 n1 n2 i ((if l = 4 then n2-thick else 0) + t) k := by
  unfold boundaryNodes3
  dsimp only
  rw [show swapFace false l = l from rfl, if_neg (by omega), if_pos h]
  have e : (fun (S : LoopSt) (_ : Nat) => (((List.range n1).foldl (fun (S : LoopSt) _ => (S.1 ++ (List.range thick).map fun t => S.2 + t*n1, S.2 + 1)) S).1,
        ((List.range n1).foldl (fun (S : LoopSt) _ => (S.1 ++ (List.range thick).map fun t => S.2 + t*n1, S.2 + 1)) S).2 + n1*(n2-1))) =
      fun S _ => (S.1 ++ (List.range n1).flatMap (fun i => (List.range thick).map fun t => (S.2 + 1*i) + t*n1), S.2 + n1*n2) := by
    funext S _
    rw [fold_run (fun x => (List.range thick).map fun t => x + t*n1)]
    dsimp only
    congr 1
    obtain ⟨m, rfl⟩ : ∃ m, n2 = m+1 := ⟨n2-1, by omega⟩
    rw [Nat.add_sub_cancel]; ring
  rw [e, fold_run (fun x => (List.range n1).flatMap (fun i => (List.range thick).map fun t => (x + 1*i) + t*n1))]
  dsimp only
  rw [List.nil_append]
  refine List.flatMap_congr fun k _ => List.flatMap_congr fun i _ => List.map_congr_left fun t _ => ?_
  unfold gridNode3
  rw [Nat.mul_add, Nat.mul_add, Nat.mul_assoc, Nat.mul_comm t]
  split_ifs <;> omega

theorem nodes3_56 (node0 n1 n2 n3 l thick : Nat) (h : l = 5 ∨ l = 6) :
    boundaryNodes3 false node0 n1 n2 n3 l thick = (List.range n2).flatMap fun j => (List.range n1).flatMap fun i => (List.range thick).map fun t =>
      node0 + gridNode3 n1 n2 i j ((if l = 6 then n3-thick else 0) + t) := by
  unfold boundaryNodes3
  dsimp only
  rw [show swapFace false l = l from rfl, if_neg (by omega), if_neg (by omega), if_pos h]
  have e : (fun (S : LoopSt) (_ : Nat) => (List.range n1).foldl (fun (S : LoopSt) _ => (S.1 ++ (List.range thick).map fun t => S.2 + t*(n1*n2), S.2 + 1)) S) =
      fun S _ => (S.1 ++ (List.range n1).flatMap (fun i => (List.range thick).map fun t => (S.2 + 1*i) + t*(n1*n2)), S.2 + 1*n1) := by
    funext S _
    rw [fold_run (fun x => (List.range thick).map fun t => x + t*(n1*n2))]
  rw [e, fold_run (fun x => (List.range n1).flatMap (fun i => (List.range thick).map fun t => (x + 1*i) + t*(n1*n2)))]
  dsimp only
  rw [List.nil_append]
  refine List.flatMap_congr fun k _ => List.flatMap_congr fun i _ => List.map_congr_left fun t _ => ?_
  unfold gridNode3
  rw [Nat.mul_add, Nat.mul_add, Nat.mul_add, ← Nat.mul_assoc n1 n2, ← Nat.mul_assoc n1 n2, Nat.mul_comm t, one_mul, one_mul]
  split_ifs
  · omega
  · rw [Nat.mul_zero]; omega

theorem nodes3_swap (swapW : Bool) (node0 n1 n2 n3 l thick : Nat) (h : l ≤ 6) : boundaryNodes3 swapW node0 n1 n2 n3 l thick = boundaryNodes3 false node0 n1 n2 n3 (swapFace swapW l) thick := by
  unfold boundaryNodes3
  rfl

theorem edge_nodes (node0 n1 n2 n3 l : Nat) (isOpen : Bool) :
    boundary1Nodes3 false node0 n1 n2 n3 l isOpen = ((List.range (edgeRange n1 n2 n3 l).2).filter fun i => decide (isOpen = false ∨ (0 < i ∧ i+1 < (edgeRange n1 n2 n3 l).2))).map
      fun i => edgeStart node0 n1 n2 n3 l + (edgeRange n1 n2 n3 l).1*i := by
  unfold boundary1Nodes3
  dsimp only
  rw [show swapEdge false l = l from rfl]
  generalize edgeRange n1 n2 n3 l = r
  generalize edgeStart node0 n1 n2 n3 l = x
  have key : ∀ n, (List.range' 1 n).foldl (fun (S : LoopSt) i => (if isOpen = false ∨ (i > 1 ∧ i < r.2) then S.1 ++ [S.2] else S.1, S.2 + r.1)) ([], x) =
      (((List.range n).filter fun i => decide (isOpen = false ∨ (0 < i ∧ i+1 < r.2))).map fun i => x + r.1*i, x + r.1*n) := by
    intro n
    induction n with
    | zero => simp
    | succ n ih =>
      rw [List.range'_1_concat, List.foldl_append, List.foldl_cons, List.foldl_nil, ih, List.range_succ, List.filter_append, List.map_append]
      dsimp only
      have hc : (isOpen = false ∨ (1+n > 1 ∧ 1+n < r.2)) ↔ (isOpen = false ∨ (0 < n ∧ n+1 < r.2)) := by
        constructor
        · rintro (h | h)
          · exact .inl h
          · exact .inr (by omega)
        · rintro (h | h)
          · exact .inl h
          · exact .inr (by omega)
      by_cases hp : isOpen = false ∨ (0 < n ∧ n+1 < r.2)
      · rw [if_pos (hc.2 hp)]
        simp only [List.filter_cons, List.filter_nil, decide_eq_true hp, if_true, List.map_cons, List.map_nil]
        rw [Nat.mul_add, Nat.mul_one, Nat.add_assoc]
      · rw [if_neg (fun h => hp (hc.1 h))]
        simp only [List.filter_cons, List.filter_nil, decide_eq_false hp, Bool.false_eq_true, if_false, List.map_nil, List.append_nil]
        rw [Nat.mul_add, Nat.mul_one, Nat.add_assoc]
  rw [key]

end IFEM.Topo
