import Verif.Model.DomainGeom
import Verif.Spec.DomainNumbers
import Verif.Props.Connect
import Mathlib.Tactic.Ring
import Mathlib.Tactic.Linarith
import Mathlib.Tactic.IntervalCases
import Mathlib.Data.List.Nodup
import Mathlib.Data.List.GetD

/-!
# C67: the nodes of a connection across processes

In a parallel run the two patches of a connection may be on different processes.  The slave takes the numbers of the master's nodes in the order of `OrientIterator`.  The theorems
compare this with the nodes a serial run joins (C57).
-/
namespace IFEM.DomGeom
open IFEM.Spec IFEM.Topo IFEM.Lag IFEM.Threads IFEM.Props IFEM.DomNum

theorem mapM_some_map {α β : Type} (l : List α) (f : α → Option β) (g : α → β) (h : ∀ a ∈ l, f a = some (g a)) : l.mapM f = some (l.map g) := by
  induction l with
  | nil => rfl
  | cons a l ih => rw [List.mapM_cons, h a (by simp), ih fun b hb => h b (by simp [hb])]; rfl

theorem orderRow_eq (step : Int) (n : Nat) : ∀ first : Int, orderRow step first n = (List.range n).map fun i : Nat => first + i*step := by
  induction n with
  | zero => intro _; rfl
  | succ n ih =>
    intro first
    rw [orderRow, ih, List.range_succ_eq_map, List.map_cons, List.map_map]
    simp only [Int.natCast_zero, Int.zero_mul, Int.add_zero]
    congr 1
    refine List.map_congr_left fun i _ => ?_
    show _ = first + ((i+1 : Nat) : Int)*step
    push_cast
    ring

/-- The position on the master's face for the position `(k, l)` of the slave's face with `m1 x m2` nodes: the inverse of `matching`. -/
def unmatch (orient m1 m2 k l : Nat) : Nat × Nat :=
  let x := if orient / 2 % 2 = 1 then m1-1-k else k
  let y := if orient % 2 = 1 then m2-1-l else l
  if orient / 4 % 2 = 1 then (y, x) else (x, y)

theorem unmatch_matching {orient m1 m2 n1 n2 i j : Nat} (hn : orient ≤ 7) (hm : (if orient > 3 then (n2, n1) else (n1, n2)) = (m1, m2)) (hi : i < n1) (hj : j < n2) :
    unmatch orient m1 m2 (matching orient m1 m2 i j).1 (matching orient m1 m2 i j).2 = (i, j) := by
  interval_cases orient <;> simp at hm <;> obtain ⟨rfl, rfl⟩ := hm <;> simp [matching, unmatch] <;> omega

theorem matching_unmatch {orient m1 m2 k l : Nat} (hn : orient ≤ 7) (hk : k < m1) (hl : l < m2) :
    matching orient m1 m2 (unmatch orient m1 m2 k l).1 (unmatch orient m1 m2 k l).2 = (k, l) := by
  interval_cases orient <;> simp [matching, unmatch] <;> omega

theorem unmatch_bound {orient m1 m2 n1 n2 k l : Nat} (hn : orient ≤ 7) (hm : (if orient > 3 then (n2, n1) else (n1, n2)) = (m1, m2)) (hk : k < m1) (hl : l < m2) :
    (unmatch orient m1 m2 k l).1 < n1 ∧ (unmatch orient m1 m2 k l).2 < n2 := by
  interval_cases orient <;> simp at hm <;> obtain ⟨rfl, rfl⟩ := hm <;> simp [unmatch] <;> omega

/-- The value of the visiting order at position `(k, l)`. -/
theorem order_value {orient m1 m2 n1 n2 k l : Nat} (hn : orient ≤ 7) (hm : (if orient > 3 then (n2, n1) else (n1, n2)) = (m1, m2)) (hsq : 4 ≤ orient → m1 = m2) (hk : k < m1) (hl : l < m2) :
    (orderStart orient m1 m2 l).map (fun x => x.1 + (k : Int)*x.2) = some (((unmatch orient m1 m2 k l).2*n1 + (unmatch orient m1 m2 k l).1 : Nat) : Int) := by
  interval_cases orient
  · simp at hm; obtain ⟨rfl, rfl⟩ := hm
    simp [orderStart, unmatch]
  · simp at hm; obtain ⟨rfl, rfl⟩ := hm
    simp only [orderStart, unmatch, Option.map_some]
    norm_num
    left
    push_cast [Nat.cast_sub (show 1+l ≤ n2 by omega), show n2-1-l = n2-(1+l) by omega]
    ring
  · simp at hm; obtain ⟨rfl, rfl⟩ := hm
    simp only [orderStart, unmatch, Option.map_some]
    norm_num
    push_cast [Nat.cast_sub (show 1+k ≤ n1 by omega), show n1-1-k = n1-(1+k) by omega]
    ring
  · simp at hm; obtain ⟨rfl, rfl⟩ := hm
    simp only [orderStart, unmatch, Option.map_some]
    norm_num
    push_cast [Nat.cast_sub (show 1+k ≤ n1 by omega), show n1-1-k = n1-(1+k) by omega, Nat.cast_sub (show 1+l ≤ n2 by omega), show n2-1-l = n2-(1+l) by omega]
    ring
  · simp at hm; obtain ⟨rfl, rfl⟩ := hm
    obtain rfl := hsq (by omega)
    simp only [orderStart, unmatch, Option.map_some]
    norm_num
    ring
  · simp at hm; obtain ⟨rfl, rfl⟩ := hm
    obtain rfl := hsq (by omega)
    simp only [orderStart, unmatch, Option.map_some]
    norm_num
    push_cast [Nat.cast_sub (show 1+l ≤ n2 by omega), show n2-1-l = n2-(1+l) by omega]
    ring
  · simp at hm; obtain ⟨rfl, rfl⟩ := hm
    obtain rfl := hsq (by omega)
    simp only [orderStart, unmatch, Option.map_some]
    norm_num
    push_cast [Nat.cast_sub (show 1+k ≤ n2 by omega), show n2-1-k = n2-(1+k) by omega]
    ring
  · simp at hm; obtain ⟨rfl, rfl⟩ := hm
    obtain rfl := hsq (by omega)
    simp only [orderStart, unmatch, Option.map_some]
    norm_num
    push_cast [Nat.cast_sub (show 1+k ≤ n2 by omega), show n2-1-k = n2-(1+k) by omega, Nat.cast_sub (show 1+l ≤ n2 by omega), show n2-1-l = n2-(1+l) by omega]
    ring

/-- The visiting order as a list of positions on the master's face. -/
def orderNat (orient m1 m2 n1 : Nat) : List Nat :=
  (List.range m2).flatMap fun l => (List.range m1).map fun k => (unmatch orient m1 m2 k l).2*n1 + (unmatch orient m1 m2 k l).1

theorem faceOrder_eq {orient m1 m2 n1 n2 : Nat} (hn : orient ≤ 7) (hm : (if orient > 3 then (n2, n1) else (n1, n2)) = (m1, m2)) (hsq : 4 ≤ orient → m1 = m2) :
    faceOrder orient m1 m2 = some ((orderNat orient m1 m2 n1).map fun x : Nat => (x : Int)) := by
  unfold faceOrder
  rw [mapM_some_map (List.range m2) _ (fun l => (List.range m1).map fun k => (((unmatch orient m1 m2 k l).2*n1 + (unmatch orient m1 m2 k l).1 : Nat) : Int))]
  · rw [Option.map_some]
    congr 1
    unfold orderNat
    rw [List.map_flatMap, List.flatMap]
    congr 1
    refine List.map_congr_left fun l _ => ?_
    rw [List.map_map]
    rfl
  · intro l hl
    rw [List.mem_range] at hl
    cases hs : orderStart orient m1 m2 l with
    | none =>
      exfalso
      interval_cases orient <;> simp [orderStart] at hs
    | some x =>
      rw [Option.map_some, orderRow_eq]
      congr 1
      refine List.map_congr_left fun k hk => ?_
      rw [List.mem_range] at hk
      have := order_value hn hm hsq hk hl
      rw [hs, Option.map_some] at this
      exact Option.some.inj this

/-- All positions of a face with `a x b` nodes in `c` layers. -/
def box (a b c : Nat) : List (Nat × Nat × Nat) :=
  (List.range b).flatMap fun j => (List.range a).flatMap fun i => (List.range c).map fun t => (i, j, t)

theorem mem_box {a b c : Nat} {x : Nat × Nat × Nat} : x ∈ box a b c ↔ x.1 < a ∧ x.2.1 < b ∧ x.2.2 < c := by
  obtain ⟨i, j, t⟩ := x
  unfold box
  simp only [List.mem_flatMap, List.mem_map, List.mem_range, Prod.mk.injEq]
  constructor
  · rintro ⟨_, h1, _, h2, _, h3, rfl, rfl, rfl⟩
    exact ⟨h2, h1, h3⟩
  · rintro ⟨h1, h2, h3⟩
    exact ⟨j, h2, i, h1, t, h3, rfl, rfl, rfl⟩

theorem nodup_box (a b c : Nat) : (box a b c).Nodup := by
  unfold box
  rw [List.nodup_flatMap]
  refine ⟨fun j _ => ?_, List.nodup_range.imp fun {x y} hxy => ?_⟩
  · rw [List.nodup_flatMap]
    refine ⟨fun i _ => (List.nodup_map_iff_inj_on List.nodup_range).2 fun s _ t _ h => by simpa using h, List.nodup_range.imp fun {x y} hxy => ?_⟩
    rw [Function.onFun, List.disjoint_left]
    intro z h1 h2
    obtain ⟨s, _, rfl⟩ := List.mem_map.1 h1
    obtain ⟨t, _, h⟩ := List.mem_map.1 h2
    simp at h
    omega
  · rw [Function.onFun, List.disjoint_left]
    intro z h1 h2
    simp only [List.mem_flatMap, List.mem_map] at h1 h2
    obtain ⟨i, _, s, _, rfl⟩ := h1
    obtain ⟨i', _, t, _, h⟩ := h2
    simp at h
    omega

/-- Visiting the positions of the slave's face gives all positions of the master's face. -/
theorem box_perm {orient m1 m2 n1 n2 c : Nat} (hn : orient ≤ 7) (hm : (if orient > 3 then (n2, n1) else (n1, n2)) = (m1, m2)) :
    ((box m1 m2 c).map fun x => ((unmatch orient m1 m2 x.1 x.2.1).1, (unmatch orient m1 m2 x.1 x.2.1).2, x.2.2)).Perm (box n1 n2 c) := by
  rw [List.perm_ext_iff_of_nodup ?_ (nodup_box _ _ _)]
  · rintro ⟨i, j, t⟩
    rw [List.mem_map, mem_box]
    constructor
    · rintro ⟨⟨k, l, s⟩, h1, h2⟩
      rw [mem_box] at h1
      simp only [Prod.mk.injEq] at h2
      obtain ⟨rfl, rfl, rfl⟩ := h2
      obtain ⟨b1, b2⟩ := unmatch_bound hn hm h1.1 h1.2.1
      exact ⟨b1, b2, h1.2.2⟩
    · rintro ⟨h1, h2, h3⟩
      obtain ⟨b1, b2⟩ := matching_bound hn hm h1 h2
      refine ⟨((matching orient m1 m2 i j).1, (matching orient m1 m2 i j).2, t), mem_box.2 ⟨b1, b2, h3⟩, ?_⟩
      dsimp only
      rw [unmatch_matching hn hm h1 h2]
  · refine (List.nodup_map_iff_inj_on (nodup_box _ _ _)).2 ?_
    rintro ⟨k, l, t⟩ h1 ⟨k', l', t'⟩ h2 h
    rw [mem_box] at h1 h2
    simp only [Prod.mk.injEq] at h
    have e1 := matching_unmatch hn h1.1 h1.2.1
    have e2 := matching_unmatch hn h2.1 h2.2.1
    rw [h.1, h.2.1, e2] at e1
    simp only [Prod.mk.injEq] at e1
    obtain ⟨e3, e4⟩ := e1
    rw [e3, e4, h.2.2]

/-- A boundary with nodes, as sent from one process to the other. -/
def nodePart (nodes : List Nat) : Part := ⟨nodes, 1⟩

/-- The pairs (master node, slave node) of a connection between two processes. -/
def procPairs (thick : Nat) (order : List Nat) (slave master : List Nat) : List (Nat × Nat) :=
  (partLinks thick order (nodePart slave) (nodePart master)).map fun y => (y.2.1, y.1.1)

theorem procPairs_eq (thick : Nat) (order : List Nat) (slave master : List Nat) :
    procPairs thick order slave master = (List.range order.length).flatMap fun i => (List.range thick).map fun t =>
      (master.getD (order.getD i 0*thick+t) 0, slave.getD (i*thick+t) 0) := by
  unfold procPairs partLinks nodePart
  rw [List.map_flatMap]
  refine List.flatMap_congr fun i _ => ?_
  rw [List.map_flatMap]
  simp [← List.map_eq_flatMap]

theorem range_mul {α : Type} (a b : Nat) (f : Nat → List α) : (List.range (b*a)).flatMap f = (List.range b).flatMap fun j => (List.range a).flatMap fun i => f (j*a+i) := by
  induction b with
  | zero => simp
  | succ b ih =>
    rw [Nat.succ_mul, List.range_add, List.flatMap_append, ih, List.range_succ, List.flatMap_append, List.flatMap_map]
    simp

theorem orderNat_get {orient m1 m2 n1 k l : Nat} (hk : k < m1) (hl : l < m2) :
    (orderNat orient m1 m2 n1).getD (l*m1+k) 0 = (unmatch orient m1 m2 k l).2*n1 + (unmatch orient m1 m2 k l).1 := by
  unfold orderNat
  rw [List.getD_eq_getElem?_getD, flatMap_range_get _ m1 _ (fun j _ => by simp) l k hl hk]
  simp [hk]

theorem orderNat_length (orient m1 m2 n1 : Nat) : (orderNat orient m1 m2 n1).length = m2*m1 := by
  unfold orderNat
  exact flatMap_range_length _ m1 _ (fun j _ => by simp)

/-- **C67** (faces). Two volume patches on different processes are connected as in a serial run: with the visiting order of the slave's face, the process that owns the slave takes
for each of its nodes the number of the master's node which a serial run (C57) would join with it; these are all the pairs.  If the orientation swaps the two directions of the face, the face
must have the same number of nodes in both directions (see `C67_faces_counterexample`). -/
theorem C67_faces (p q : Vol) (face nface orient thick : Nat) (hf : 1 ≤ face ∧ face ≤ 6) (hnf : 1 ≤ nface ∧ nface ≤ 6) (hp2 : 0 < p.n2) (hq2 : 0 < q.n2) (ho : orient ≤ 7)
    (hm : (if orient > 3 then ((faceLengths q.n1 q.n2 q.n3 nface).2, (faceLengths q.n1 q.n2 q.n3 nface).1) else faceLengths q.n1 q.n2 q.n3 nface) = faceLengths p.n1 p.n2 p.n3 face)
    (hsq : 4 ≤ orient → (faceLengths p.n1 p.n2 p.n3 face).1 = (faceLengths p.n1 p.n2 p.n3 face).2) :
    ∃ order : List Nat, orientIterator3 p.n1 p.n2 p.n3 orient face = some (order.map fun x : Nat => (x : Int)) ∧
      order.Perm (List.range order.length) ∧
      (procPairs thick order (boundaryNodes3 false 1 p.n1 p.n2 p.n3 face thick) (boundaryNodes3 false 1 q.n1 q.n2 q.n3 nface thick)).Perm (facePairs p face q nface orient thick) := by
  have hd : orderDims p.n1 p.n2 p.n3 face = faceLengths p.n1 p.n2 p.n3 face := by
    unfold orderDims faceLengths
    split_ifs <;> first | rfl | omega
  have hm' : (if orient > 3 then ((faceLengths q.n1 q.n2 q.n3 nface).2, (faceLengths q.n1 q.n2 q.n3 nface).1) else ((faceLengths q.n1 q.n2 q.n3 nface).1, (faceLengths q.n1 q.n2 q.n3 nface).2)) =
      ((faceLengths p.n1 p.n2 p.n3 face).1, (faceLengths p.n1 p.n2 p.n3 face).2) := hm
  have fp : ∀ a b t, a < (faceLengths p.n1 p.n2 p.n3 face).1 → b < (faceLengths p.n1 p.n2 p.n3 face).2 → t < thick → _ := fun a b t ha hb ht =>
    face_list p.n1 p.n2 p.n3 face thick hf hp2 a b t ha hb ht
  have fq : ∀ a b t, a < (faceLengths q.n1 q.n2 q.n3 nface).1 → b < (faceLengths q.n1 q.n2 q.n3 nface).2 → t < thick → _ := fun a b t ha hb ht =>
    face_list q.n1 q.n2 q.n3 nface thick hnf hq2 a b t ha hb ht
  unfold orientIterator3 facePairs
  rw [hd]
  generalize faceLengths p.n1 p.n2 p.n3 face = m at *
  generalize faceLengths q.n1 q.n2 q.n3 nface = n at *
  obtain ⟨m1, m2⟩ := m
  obtain ⟨n1, n2⟩ := n
  dsimp only at *
  refine ⟨orderNat orient m1 m2 n1, faceOrder_eq ho hm' hsq, ?_, ?_⟩
  · have hp := (box_perm (c := 1) ho hm').map fun x => x.2.1*n1 + x.1
    have e1 : ((box m1 m2 1).map fun x => ((unmatch orient m1 m2 x.1 x.2.1).1, (unmatch orient m1 m2 x.1 x.2.1).2, x.2.2)).map (fun x => x.2.1*n1 + x.1) = orderNat orient m1 m2 n1 := by
      unfold box orderNat
      simp [List.map_flatMap, ← List.map_eq_flatMap]
      rfl
    have e2 : (box n1 n2 1).map (fun x => x.2.1*n1 + x.1) = List.range (orderNat orient m1 m2 n1).length := by
      have : (orderNat orient m1 m2 n1).length = n2*n1 := by
        rw [orderNat_length]
        split at hm' <;> simp only [Prod.mk.injEq] at hm' <;> obtain ⟨rfl, rfl⟩ := hm' <;> ring
      rw [this, ← List.flatMap_singleton' (List.range (n2*n1)), range_mul]
      unfold box
      simp [List.map_flatMap]
    rw [e1, e2] at hp
    exact hp
  · rw [procPairs_eq, orderNat_length, range_mul]
    have hp := (box_perm (c := thick) ho hm').map fun x =>
      (1 + gridNode3 q.n1 q.n2 (facePoint q.n1 q.n2 q.n3 nface thick x.1 x.2.1 x.2.2).1 (facePoint q.n1 q.n2 q.n3 nface thick x.1 x.2.1 x.2.2).2.1 (facePoint q.n1 q.n2 q.n3 nface thick x.1 x.2.1 x.2.2).2.2,
       1 + gridNode3 p.n1 p.n2 (facePoint p.n1 p.n2 p.n3 face thick (matching orient m1 m2 x.1 x.2.1).1 (matching orient m1 m2 x.1 x.2.1).2 x.2.2).1
        (facePoint p.n1 p.n2 p.n3 face thick (matching orient m1 m2 x.1 x.2.1).1 (matching orient m1 m2 x.1 x.2.1).2 x.2.2).2.1
        (facePoint p.n1 p.n2 p.n3 face thick (matching orient m1 m2 x.1 x.2.1).1 (matching orient m1 m2 x.1 x.2.1).2 x.2.2).2.2)
    rw [List.map_map] at hp
    have e1 : ∀ {α : Type} (a b c : Nat) (f : Nat × Nat × Nat → α), (box a b c).map f = (List.range b).flatMap fun j => (List.range a).flatMap fun i => (List.range c).map fun t => f (i, j, t) := by
      intro α a b c f
      unfold box
      simp only [List.map_flatMap, List.map_map]
      rfl
    rw [e1, e1] at hp
    refine List.Perm.trans (List.Perm.of_eq ?_) hp
    refine List.flatMap_congr fun l hl => List.flatMap_congr fun k hk => List.map_congr_left fun t ht => ?_
    rw [List.mem_range] at hl hk ht
    obtain ⟨b1, b2⟩ := unmatch_bound ho hm' hk hl
    rw [orderNat_get hk hl, fq _ _ t b1 b2 ht, fp k l t hk hl ht]
    dsimp only [Function.comp]
    rw [matching_unmatch ho hk hl]

/-- **C67** (counterexample, faces). If the orientation swaps the two directions of a face with 2 x 3 nodes, the slave takes the number of the wrong nodes: the visiting order is
`0 2 1 3 2 4`, so some node is taken twice and others never, while a serial run joins `0 3 1 4 2 5`. -/
theorem C67_faces_counterexample : orientIterator3 2 2 3 4 1 = some [0, 2, 1, 3, 2, 4] ∧
    (connectPatch3 (fun _ _ => true) ⟨2, 2, 3, false⟩ 1 ⟨2, 3, 2, false⟩ 1 4 1).2 = true ∧
    ¬ (procPairs 1 [0, 2, 1, 3, 2, 4] (boundaryNodes3 false 1 2 2 3 1 1) (boundaryNodes3 false 1 2 3 2 1 1)).Perm
      (connectPatch3 (fun _ _ => true) ⟨2, 2, 3, false⟩ 1 ⟨2, 3, 2, false⟩ 1 4 1).1 := by
  refine ⟨?_, ?_, ?_⟩ <;> decide +kernel

/-- **C67** (edges). Two surface patches on different processes are connected as in a serial run. -/
theorem C67_edges (p q : Surf) (edge nedge : Nat) (revers : Bool) (he : 1 ≤ edge ∧ edge ≤ 4) (hne : 1 ≤ nedge ∧ nedge ≤ 4)
    (hp1 : 0 < p.n1) (hp2 : 0 < p.n2) (hq1 : 0 < q.n1) (hq2 : 0 < q.n2) (hsp : p.swapV = false) (hsq : q.swapV = false)
    (hl : edgeLength q.n1 q.n2 nedge = edgeLength p.n1 p.n2 edge) :
    ∃ order : List Nat, orientIterator2 p.n1 p.n2 (if revers then 1 else 0) edge = order.map (fun x : Nat => (x : Int)) ∧ order.Perm (List.range order.length) ∧
      (procPairs 1 order (boundaryNodes2 1 p.n1 p.n2 edge 1) (boundaryNodes2 1 q.n1 q.n2 nedge 1)).Perm (edgePairs p edge q nedge revers) := by
  have hd : (if edge = 1 ∨ edge = 2 then p.n2 else p.n1) = edgeLength p.n1 p.n2 edge := by
    unfold edgeLength
    split_ifs <;> first | rfl | omega
  have ep := edge_list p.n1 p.n2 false edge he hp1 hp2
  have eq := edge_list q.n1 q.n2 false nedge hne hq1 hq2
  rw [show swapEdge2 false edge = edge from by simp [swapEdge2]] at ep
  rw [show swapEdge2 false nedge = nedge from by simp [swapEdge2]] at eq
  unfold orientIterator2 edgePairs
  dsimp only
  rw [hd, ep, eq, hsp, hsq, hl]
  generalize edgeLength p.n1 p.n2 edge = n
  have key : ∀ (order : List Nat) (hlen : order.length = n) (hb : ∀ i (h : i < order.length), order[i] < n) (f g : Nat → Nat),
      procPairs 1 order ((List.range n).map f) ((List.range n).map g) = (List.range n).map fun i => (g (order.getD i 0), f i) := by
    intro order hlen hb f g
    rw [procPairs_eq, hlen, List.map_eq_flatMap (f := fun i => (g (order.getD i 0), f i))]
    refine List.flatMap_congr fun i hi => ?_
    rw [List.mem_range] at hi
    have h1 := hb i (by omega)
    have h2 : order.getD i 0 = order[i]'(by omega) := by rw [List.getD_eq_getElem _ _ (by omega)]
    rw [h2]
    simp [List.getD_eq_getElem?_getD, hi, h1]
  cases revers with
  | false =>
    refine ⟨List.range n, by simp, by simp, ?_⟩
    rw [key _ (by simp) (by simp)]
    refine List.Perm.of_eq (List.map_congr_left fun i hi => ?_)
    rw [List.mem_range] at hi
    simp [List.getD_eq_getElem?_getD, hi]
  | true =>
    refine ⟨(List.range n).reverse, by simp, by simpa using List.reverse_perm _, ?_⟩
    rw [key _ (by simp) (fun i h => by simp at h ⊢; omega)]
    have e : (List.range n).map (fun s => n - 1 - s) = (List.range n).reverse := by
      refine List.ext_getElem (by simp) fun i h1 h2 => ?_
      simp at h1 h2 ⊢
    have hp := (List.reverse_perm (List.range n)).map fun s =>
      (1 + gridNode2 q.n1 (edgePoint q.n1 q.n2 false nedge s).1 (edgePoint q.n1 q.n2 false nedge s).2,
       1 + gridNode2 p.n1 (edgePoint p.n1 p.n2 false edge (n-1-s)).1 (edgePoint p.n1 p.n2 false edge (n-1-s)).2)
    rw [← e, List.map_map] at hp
    refine List.Perm.trans (List.Perm.of_eq (List.map_congr_left fun i hi => ?_)) hp
    rw [List.mem_range] at hi
    have h1 : (List.range n).reverse.getD i 0 = n-1-i := by
      rw [← e, List.getD_eq_getElem _ _ (by simpa using hi)]
      simp
    rw [h1]
    dsimp only [Function.comp]
    rw [show n-1-(n-1-i) = i by omega]

/-- The hypotheses are met: face 2 of a patch with 3 x 4 x 4 nodes and face 1 of a patch with 5 x 4 x 4 nodes, rotated by a quarter. -/
example : ∃ order, orientIterator3 3 4 4 5 2 = some (order.map fun x : Nat => (x : Int)) ∧
    (procPairs 1 order (boundaryNodes3 false 1 3 4 4 2 1) (boundaryNodes3 false 1 5 4 4 1 1)).Perm (facePairs ⟨3, 4, 4, false⟩ 2 ⟨5, 4, 4, false⟩ 1 5 1) :=
  let ⟨o, h1, _, h2⟩ := C67_faces ⟨3, 4, 4, false⟩ ⟨5, 4, 4, false⟩ 2 1 5 1 (by decide) (by decide) (by decide) (by decide) (by decide) (by decide) (by decide)
  ⟨o, h1, h2⟩

example : ∃ order, orientIterator2 3 4 1 2 = order.map (fun x : Nat => (x : Int)) ∧
    (procPairs 1 order (boundaryNodes2 1 3 4 2 1) (boundaryNodes2 1 4 3 3 1)).Perm (edgePairs ⟨3, 4, false⟩ 2 ⟨4, 3, false⟩ 3 true) :=
  let ⟨o, h1, _, h2⟩ := C67_edges ⟨3, 4, false⟩ ⟨4, 3, false⟩ 2 3 true (by decide) (by decide) (by decide) (by decide) (by decide) (by decide) rfl rfl (by decide)
  ⟨o, h1, h2⟩

end IFEM.DomGeom
