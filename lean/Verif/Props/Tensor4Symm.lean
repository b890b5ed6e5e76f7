import Verif.Props.Tensor4
/-!
# C91: Symmetric fourth-order tensors
-/
namespace IFEM.Tens4
open IFEM.Spec

variable {R : Type}

theorem symIndex_eq {n i j i' j' : Nat} (hn : n ≤ 3) (hi : 1 ≤ i ∧ i ≤ n) (hj : 1 ≤ j ∧ j ≤ n) (hi' : 1 ≤ i' ∧ i' ≤ n) (hj' : 1 ≤ j' ∧ j' ≤ n) :
    symIndex n i j = symIndex n i' j' ↔ (i = i' ∧ j = j') ∨ (i = j' ∧ j = i') := by
  unfold symIndex
  obtain rfl | rfl | rfl : n = 1 ∨ n = 2 ∨ n = 3 := by omega
  all_goals split_ifs <;> omega

theorem symIndex_lt {n i j : Nat} (hn : n ≤ 3) (hi : 1 ≤ i ∧ i ≤ n) (hj : 1 ≤ j ∧ j ≤ n) :
    symIndex n i j < matDim true n ∧ matDim true n ≤ n*n := by
  unfold symIndex matDim
  obtain rfl | rfl | rfl : n = 1 ∨ n = 2 ∨ n = 3 := by omega
  all_goals constructor <;> split_ifs <;> omega

theorem symPos {n i j k l : Nat} (hn : n ≤ 3) (h : InRange n i j k l) : symIndex n i j * (n*n) + symIndex n k l < n*n*(n*n) := by
  obtain ⟨hi, hj, hk, hl⟩ := h
  have h1 := symIndex_lt hn hi hj
  have h2 := symIndex_lt hn hk hl
  have := digit_lt (n := n*n) (a := symIndex n k l) (b := symIndex n i j) (N := n*n) (by omega) (by omega)
  rw [Nat.mul_comm (symIndex n i j)]
  omega

theorem symPos_eq {n i j k l i' j' k' l' : Nat} (hn : n ≤ 3) (h : InRange n i j k l) (h' : InRange n i' j' k' l') :
    symIndex n i j * (n*n) + symIndex n k l = symIndex n i' j' * (n*n) + symIndex n k' l' ↔
      ((i = i' ∧ j = j') ∨ (i = j' ∧ j = i')) ∧ ((k = k' ∧ l = l') ∨ (k = l' ∧ l = k')) := by
  obtain ⟨hi, hj, hk, hl⟩ := h
  obtain ⟨hi', hj', hk', hl'⟩ := h'
  have h1 := symIndex_lt hn hk hl
  have h2 := symIndex_lt hn hk' hl'
  rw [← symIndex_eq hn hi hj hi' hj', ← symIndex_eq hn hk hl hk' hl']
  have := digit (n := n*n) (a := symIndex n k l) (b := symIndex n i j) (a' := symIndex n k' l') (b' := symIndex n i' j') (by omega) (by omega)
  rw [Nat.mul_comm (symIndex n i j), Nat.mul_comm (symIndex n i' j'), Nat.add_comm, Nat.add_comm (n*n*symIndex n i' j'), this]
  exact And.comm

/-- Components of a symmetric tensor are symmetric in the first two and in the last two indices. -/
theorem C91_symm (T : Tensor R) (hs : T.symm = true) (hn : T.n ≤ 3) {i j k l : Nat} (h : InRange T.n i j k l) :
    T.get i j k l = T.get j i k l ∧ T.get i j k l = T.get i j l k := by
  obtain ⟨hi, hj, hk, hl⟩ := h
  have e1 : symIndex T.n i j = symIndex T.n j i := (symIndex_eq hn hi hj hj hi).2 (Or.inr ⟨rfl, rfl⟩)
  have e2 : symIndex T.n k l = symIndex T.n l k := (symIndex_eq hn hk hl hl hk).2 (Or.inr ⟨rfl, rfl⟩)
  unfold Tensor.get Tensor.pos
  rw [hs]
  simp only [if_true]
  rw [← e1, ← e2]
  exact ⟨rfl, rfl⟩

theorem createSymm_length [Zero R] [One R] [DecidableEq R] (nd : Nat) (makeJ : Bool) :
    (createSymm nd makeJ : Tensor R).v.length = nd*nd*(nd*nd) := by
  unfold createSymm create
  dsimp only
  rw [setAll_length, if_neg (by simp), List.length_replicate]

/-- The components of the created symmetric tensor: one where all four indices are equal, or (with `makeJ`) where the first two are equal and the
last two are equal, and zero elsewhere. -/
theorem C91_symm_create [Zero R] [One R] [DecidableEq R] (nd : Nat) (hn : nd ≤ 3) (makeJ : Bool) {i j k l : Nat} (h : InRange nd i j k l) :
    (createSymm nd makeJ : Tensor R).get i j k l = some (if (if makeJ then i = j ∧ k = l else i = j ∧ j = k ∧ k = l) then 1 else 0) := by
  have hp := symPos hn h
  have hget : (createSymm nd makeJ : Tensor R).get i j k l =
      (createSymm nd makeJ : Tensor R).v[symIndex nd i j * (nd*nd) + symIndex nd k l]? := rfl
  have hdiag : ∀ a, 1 ≤ a → symIndex nd a a = a - 1 := by intro a _; unfold symIndex; rw [if_pos rfl]
  rw [hget]
  unfold createSymm create
  dsimp only
  rw [if_neg (show ¬ (0 : R) ≠ 0 by simp), setAll_get, List.length_replicate, List.getElem?_replicate, if_pos hp]
  have hr : ∀ a b, a < nd → b < nd → (a * (nd*nd) + b = symIndex nd i j * (nd*nd) + symIndex nd k l ↔
      (i = a+1 ∧ j = a+1) ∧ (k = b+1 ∧ l = b+1)) := by
    intro a b ha hb
    have := symPos_eq (i := a+1) (j := a+1) (k := b+1) (l := b+1) hn ⟨by omega, by omega, by omega, by omega⟩ h
    rw [hdiag _ (by omega), hdiag _ (by omega), Nat.add_sub_cancel, Nat.add_sub_cancel] at this
    rw [this]
    omega
  obtain ⟨hi, hj, hk, hl⟩ := h
  cases makeJ with
  | true =>
    have hm : symIndex nd i j * (nd*nd) + symIndex nd k l ∈ ((List.range nd).flatMap fun i => (List.range nd).map fun j => i*(nd*nd) + j) ↔
        i = j ∧ k = l := by
      rw [List.mem_flatMap]
      constructor
      · rintro ⟨a, ha, hb⟩
        obtain ⟨b, hb, e⟩ := List.mem_map.1 hb
        rw [List.mem_range] at ha hb
        have := (hr a b ha hb).1 e
        omega
      · rintro ⟨rfl, rfl⟩
        exact ⟨i-1, by rw [List.mem_range]; omega, List.mem_map.2 ⟨k-1, by rw [List.mem_range]; omega, (hr _ _ (by omega) (by omega)).2 (by omega)⟩⟩
    simp only [if_true, hm, hp, and_true]
    split <;> rfl
  | false =>
    have hm : symIndex nd i j * (nd*nd) + symIndex nd k l ∈ ((List.range nd).map fun i => i*(nd*nd) + i) ↔ i = j ∧ j = k ∧ k = l := by
      rw [List.mem_map]
      constructor
      · rintro ⟨a, ha, e⟩
        rw [List.mem_range] at ha
        have := (hr a a ha ha).1 e
        omega
      · rintro ⟨rfl, rfl, rfl⟩
        exact ⟨i-1, by rw [List.mem_range]; omega, (hr _ _ (by omega) (by omega)).2 (by omega)⟩
    simp only [Bool.false_eq_true, if_false, hm, hp, and_true]
    split <;> rfl

/-- Assignment of a component of a constructed symmetric tensor changes exactly this component and the symmetric ones. -/
theorem C91_symm_put (T : Tensor R) (hs : T.symm = true) (hn : T.n ≤ 3) (hm : T.m = T.n*T.n) (hv : T.v.length = T.m*T.m) (x : R) {i j k l : Nat}
    (h : InRange T.n i j k l) :
    ∃ T', T.put i j k l x = some T' ∧ T'.n = T.n ∧ T'.m = T.m ∧ T'.v.length = T.v.length ∧ ∀ i' j' k' l', InRange T.n i' j' k' l' →
      T'.get i' j' k' l' = if ((i = i' ∧ j = j') ∨ (i = j' ∧ j = i')) ∧ ((k = k' ∧ l = l') ∨ (k = l' ∧ l = k')) then some x else T.get i' j' k' l' := by
  have hp := symPos hn h
  have hpos : ∀ a b c d, T.pos a b c d = symIndex T.n a b * (T.n*T.n) + symIndex T.n c d := by
    intro a b c d; unfold Tensor.pos; rw [hs, hm]; rfl
  rw [hm] at hv
  refine ⟨_, if_pos (by rw [hpos, hv]; exact hp), rfl, rfl, List.length_set, ?_⟩
  intro i' j' k' l' h'
  show (T.v.set (T.pos i j k l) x)[Tensor.pos _ i' j' k' l']? = if _ then _ else T.v[T.pos i' j' k' l']?
  have : Tensor.pos { T with v := T.v.set (T.pos i j k l) x } i' j' k' l' = T.pos i' j' k' l' := rfl
  rw [this, hpos, hpos, List.getElem?_set, hv]
  have e := symPos_eq hn h h'
  by_cases c : ((i = i' ∧ j = j') ∨ (i = j' ∧ j = i')) ∧ ((k = k' ∧ l = l') ∨ (k = l' ∧ l = k'))
  · rw [if_pos (e.2 c), if_pos hp, if_pos c]
  · rw [if_neg (fun h => c (e.1 h)), if_neg c]

/-- Finding F183: in two and three dimensions, a vector with the components of the matrix representation (3x3 or 6x6) is reported as too small, and the
components are looked up at wrong places, some of them outside of the vector. -/
theorem C91_symm_vector (x : List R) (nd : Nat) (hn : nd = 2 ∨ nd = 3) (hx : x.length = matDim true nd * matDim true nd) :
    (symmOfVector x nd).2 = false ∧ (∀ k l, (symmOfVector x nd).1.get 2 2 k l = x[nd*nd + symIndex nd k l]?) ∧
      matDim true nd < nd*nd ∧ (symmOfVector x nd).1.get (nd-1) nd nd nd = none := by
  rcases hn with rfl | rfl
  · have hx' : x.length = 9 := hx
    refine ⟨by unfold symmOfVector ofVector; simp [hx'], ?_, by decide, ?_⟩
    · intro k l
      unfold symmOfVector ofVector Tensor.get Tensor.pos
      simp [hx', symIndex]
    · unfold symmOfVector ofVector Tensor.get Tensor.pos
      simp [hx', symIndex]
  · have hx' : x.length = 36 := hx
    refine ⟨by unfold symmOfVector ofVector; simp [hx'], ?_, by decide, ?_⟩
    · intro k l
      unfold symmOfVector ofVector Tensor.get Tensor.pos
      simp [hx', symIndex]
    · unfold symmOfVector ofVector Tensor.get Tensor.pos
      simp [hx', symIndex]

/-- Finding F184: the assignment of a constructed symmetric tensor in two or three dimensions writes beyond the end of the vector of components. -/
theorem C91_symm_assign [Zero R] (T S : Tensor R) (hT : T.symm = true) (hn : S.n = 2 ∨ S.n = 3) (hv : S.v.length = S.n*S.n*(S.n*S.n)) :
    assign T S = none := by
  unfold assign
  dsimp only
  rw [if_neg]
  rw [hT, hv, List.length_take, List.length_append, List.length_replicate]
  rcases hn with h | h <;> rw [h] <;> simp [matDim]

/-- Finding F185: assigning a number to a constructed symmetric tensor, through a reference of the base class, sets only the first of the components
with equal indices. -/
theorem C91_symm_number [Zero R] (T : Tensor R) (hT : T.symm = true) (hn : T.n = 2 ∨ T.n = 3) (hm : T.m = T.n*T.n) (hv : T.v.length = T.m*T.m) (x : R) :
    ∃ T', assignValue T x = some T' ∧ T'.get 1 1 1 1 = some x ∧ T'.get 2 2 2 2 = some 0 := by
  rw [hm] at hv
  have hd : ∀ p ∈ diagonal T.n, p < T.v.length := by rw [hv]; exact diagonal_lt
  obtain ⟨sy, n, m, v⟩ := T
  dsimp only at hT hn hm hv hd
  subst hT hm
  refine ⟨_, if_pos hd, ?_, ?_⟩
  · show (setAll (v.map fun _ => (0 : R)) (diagonal n) x)[symIndex n 1 1 * (n*n) + symIndex n 1 1]? = _
    rw [setAll_get, List.length_map, if_pos]
    rcases hn with rfl | rfl
    · exact ⟨by decide, by rw [hv]; decide⟩
    · exact ⟨by decide, by rw [hv]; decide⟩
  · show (setAll (v.map fun _ => (0 : R)) (diagonal n) x)[symIndex n 2 2 * (n*n) + symIndex n 2 2]? = _
    have h2 : symIndex n 2 2 * (n*n) + symIndex n 2 2 < v.length := by
      rw [hv]; rcases hn with rfl | rfl <;> decide
    rw [setAll_get, if_neg, List.getElem?_map, List.getElem?_eq_getElem h2]
    · rfl
    · rcases hn with rfl | rfl
      · exact fun h => absurd h.1 (by decide)
      · exact fun h => absurd h.1 (by decide)

example : InRange (createSymm 3 true : Tensor ℤ).n 1 3 2 2 ∧ (createSymm 3 true : Tensor ℤ).m = 9 ∧
    (createSymm 3 true : Tensor ℤ).v.length = 81 := ⟨by unfold InRange createSymm create; dsimp only; omega, rfl, createSymm_length 3 true⟩

end IFEM.Tens4
