import Verif.Props.Topology
/-!
# C37: connectivity of structured patches of triangles
-/
namespace IFEM.Props
open IFEM.Spec IFEM.Topo IFEM.Lag IFEM.Threads

theorem split_get (l : List (List Nat)) (k t : Nat) (ht : t < 2) : (l.flatMap splitQuad)[2*k+t]? = l[k]?.bind fun q => (splitQuad q)[t]? := by
  induction l generalizing k with
  | nil => simp
  | cons q l ih =>
    rw [List.flatMap_cons]
    cases k with
    | zero =>
      rw [List.getElem?_append_left (by simp [splitQuad]; omega)]; simp
    | succ k =>
      rw [List.getElem?_append_right (by simp [splitQuad]; omega), show 2*(k+1)+t - (splitQuad q).length = 2*k+t by simp [splitQuad]; omega, ih]
      simp

theorem split_length (l : List (List Nat)) : (l.flatMap splitQuad).length = 2*l.length := by
  induction l with
  | nil => simp
  | cons q l ih => rw [List.flatMap_cons, List.length_append, ih]; simp [splitQuad]; omega

/-- State of the pattern loop after `n` cells. -/
def UJ (ex ey : Nat) (pat : Nat → Nat → Bool) (n : Nat) (S : List (List Nat) × Nat) : Prop :=
  S.2 = 2*n ∧ S.1.length = 2*(ex*ey) ∧ ∀ i < ex, ∀ j < ey,
    S.1[2*(i+ex*j)]? = some (cellTriangles (ex+1) (decide (i+ex*j < n) && pat i j) i j).1 ∧
    S.1[2*(i+ex*j)+1]? = some (cellTriangles (ex+1) (decide (i+ex*j < n) && pat i j) i j).2

theorem uj_step {ex ey : Nat} {pat : Nat → Nat → Bool} {i j : Nat} (hi : i < ex) (hj : j < ey) {S : List (List Nat) × Nat} (h : UJ ex ey pat (i+ex*j) S) :
    UJ ex ey pat (i+ex*j+1) (if pat i j = true then flipDiag S.1 S.2 else S.1, S.2+2) := by
  obtain ⟨h1, h2, h3⟩ := h
  have hlt : i + ex*j < ex*ey := lt2 hi hj
  refine ⟨by show S.2 + 2 = _; omega, ?_, fun i' hi' j' hj' => ?_⟩
  · show (if pat i j = true then flipDiag S.1 S.2 else S.1).length = _
    split
    · simp [flipDiag, h2]
    · exact h2
  · have ho := h3 i' hi' j' hj'
    by_cases he : i' + ex*j' = i + ex*j
    · obtain ⟨rfl, rfl⟩ := gridNode2_inj hi' hi (show gridNode2 ex i' j' = gridNode2 ex i j from he)
      have e1 : decide (i' + ex*j' < i' + ex*j') = false := by simp
      have e2 : decide (i' + ex*j' < i' + ex*j' + 1) = true := by simp
      rw [e1] at ho
      rw [e2]
      dsimp only
      by_cases hp : pat i' j' = true
      · rw [if_pos hp, hp, h1]
        have g1 : S.1.getD (2*(i'+ex*j')) [] = (cellTriangles (ex+1) false i' j').1 := by
          rw [List.getD_eq_getElem?_getD]; simpa using congrArg (fun o : Option (List Nat) => o.getD []) ho.1
        have g2 : S.1.getD (2*(i'+ex*j')+1) [] = (cellTriangles (ex+1) false i' j').2 := by
          rw [List.getD_eq_getElem?_getD]; simpa using congrArg (fun o : Option (List Nat) => o.getD []) ho.2
        unfold flipDiag
        dsimp only
        simp only [getD_set, g1, g2]
        rw [if_neg (by omega)]
        constructor
        · rw [List.getElem?_set_ne (by omega), List.getElem?_set_self (by omega)]
          simp [cellTriangles]
        · rw [List.getElem?_set_self (by rw [List.length_set]; omega), if_pos ⟨trivial, by omega⟩]
          simp [cellTriangles]
      · rw [if_neg hp]
        simp only [Bool.not_eq_true] at hp
        rw [hp]
        simpa using ho
    · have e1 : decide (i' + ex*j' < i + ex*j + 1) = decide (i' + ex*j' < i + ex*j) := by
        rw [decide_eq_decide]; omega
      rw [e1]
      dsimp only
      split
      · unfold flipDiag
        dsimp only
        rw [h1, List.getElem?_set_ne (by omega), List.getElem?_set_ne (by omega), List.getElem?_set_ne (by omega), List.getElem?_set_ne (by omega)]
        exact ho
      · exact ho

theorem uj_row {ex ey : Nat} {pat : Nat → Nat → Bool} {j : Nat} (hj : j < ey) (n : Nat) (hn : n ≤ ex) {S : List (List Nat) × Nat} (h : UJ ex ey pat (ex*j) S) :
    UJ ex ey pat (n+ex*j) ((List.range n).foldl (fun (S : List (List Nat) × Nat) i => (if pat i j = true then flipDiag S.1 S.2 else S.1, S.2 + 2)) S) := by
  induction n with
  | zero => simpa using h
  | succ n ih =>
    rw [List.range_succ, List.foldl_append, List.foldl_cons, List.foldl_nil]
    have := uj_step (by omega) hj (ih (by omega))
    rw [show n+1+ex*j = n+ex*j+1 by omega]; exact this

theorem uj_all {ex ey : Nat} {pat : Nat → Nat → Bool} (n : Nat) (hn : n ≤ ey) {S : List (List Nat) × Nat} (h : UJ ex ey pat 0 S) :
    UJ ex ey pat (ex*n) ((List.range n).foldl (fun S j => (List.range ex).foldl
      (fun (S : List (List Nat) × Nat) i => (if pat i j = true then flipDiag S.1 S.2 else S.1, S.2 + 2)) S) S) := by
  induction n with
  | zero => simpa using h
  | succ n ih =>
    rw [List.range_succ, List.foldl_append, List.foldl_cons, List.foldl_nil]
    have := uj_row (j := n) (by omega) ex le_rfl (ih (by omega))
    rw [show ex*(n+1) = ex + ex*n by ring]; exact this

/-- **C37** (triangles). A structured patch of triangles has two triangles for each cell of the grid of nodes, numbered consecutively, which cut the cell along a
diagonal; with odd numbers of nodes in both directions the diagonals alternate. -/
theorem C37_triangles (ex ey : Nat) : (triMNPC (ex+1) (ey+1)).length = 2*(ex*ey) ∧
    ∀ i < ex, ∀ j < ey, (triMNPC (ex+1) (ey+1))[2*(i + ex*j)]? = some (cellTriangles (ex+1) (antiDiagonal (ex+1) (ey+1) i j) i j).1 ∧
      (triMNPC (ex+1) (ey+1))[2*(i + ex*j)+1]? = some (cellTriangles (ex+1) (antiDiagonal (ex+1) (ey+1) i j) i j).2 := by
  have hq : QuadMesh ex ey 1 1 (lagMNPC2 (ex+1) (ey+1) 2 2) := by
    have := C37_quads ex ey 1 1 (by decide) (by decide)
    simpa only [Nat.mul_one] using this
  have h0 : ∀ pat, UJ ex ey pat 0 ((lagMNPC2 (ex+1) (ey+1) 2 2).flatMap splitQuad, 0) := fun pat => by
    refine ⟨rfl, by show (List.flatMap _ _).length = _; rw [split_length, hq.1], fun i hi j hj => ?_⟩
    obtain ⟨e, g1, g2, g3⟩ := hq.2 i hi j hj
    have e00 := g3 0 (by omega) 0 (by omega)
    have e10 := g3 1 (by omega) 0 (by omega)
    have e01 := g3 0 (by omega) 1 (by omega)
    have e11 := g3 1 (by omega) 1 (by omega)
    simp only [Nat.mul_one, Nat.one_mul, Nat.add_zero, Nat.mul_zero, Nat.zero_add, Nat.reduceAdd] at e00 e10 e01 e11
    have d : decide (i + ex*j < 0) = false := by simp
    rw [d, Bool.false_and]
    dsimp only
    have s0 := split_get (lagMNPC2 (ex+1) (ey+1) 2 2) (i+ex*j) 0 (by omega)
    have s1 := split_get (lagMNPC2 (ex+1) (ey+1) 2 2) (i+ex*j) 1 (by omega)
    rw [Nat.add_zero (2*(i+ex*j))] at s0
    rw [s0, s1, g1]
    simp only [Option.bind_some, splitQuad, List.getD_eq_getElem?_getD, e00, e10, e01, e11, Option.getD_some]
    simp [cellTriangles]
  unfold triMNPC
  dsimp only
  by_cases hodd : (ex+1) % 2 = 1 ∧ (ey+1) % 2 = 1
  · rw [if_pos hodd]
    have := uj_all (pat := fun i j => decide (i % 2 + j % 2 = 1)) ey le_rfl (h0 _)
    unfold unionJack
    simp only [decide_eq_true_eq, Nat.add_sub_cancel] at this ⊢
    obtain ⟨-, u2, u3⟩ := this
    refine ⟨u2, fun i hi j hj => ?_⟩
    have := u3 i hi j hj
    have d : (decide (i + ex*j < ex*ey) && decide (i % 2 + j % 2 = 1)) = antiDiagonal (ex+1) (ey+1) i j := by
      have : decide (i + ex*j < ex*ey) = true := decide_eq_true (lt2 hi hj)
      rw [this, Bool.true_and]
      unfold antiDiagonal
      rw [decide_eq_decide]; omega
    rw [d] at this
    exact this
  · rw [if_neg hodd]
    obtain ⟨-, u2, u3⟩ := h0 (fun _ _ => false)
    refine ⟨u2, fun i hi j hj => ?_⟩
    have := u3 i hi j hj
    have d : antiDiagonal (ex+1) (ey+1) i j = false := by
      unfold antiDiagonal
      rw [decide_eq_false_iff_not]; tauto
    simp only [Bool.and_false] at this
    rw [d]; exact this

/-- A 2 x 2 grid of cells with alternating diagonals. -/
example : triMNPC 3 3 = [[0, 1, 4], [4, 3, 0], [1, 2, 4], [5, 4, 2], [3, 4, 6], [7, 6, 4], [4, 5, 8], [8, 7, 4]] := by decide

end IFEM.Props
