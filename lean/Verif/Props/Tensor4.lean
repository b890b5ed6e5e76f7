import Verif.Spec.Tensor4
import Mathlib.Algebra.BigOperators.Ring.Finset
import Mathlib.Tactic.IntervalCases
import Mathlib.Tactic.Ring
/-!
# C91: Fourth-order tensors
-/
namespace IFEM.Tens4
open IFEM.Spec

variable {R : Type}

theorem setAll_length (ps : List Nat) (v : List R) (s : R) : (setAll v ps s).length = v.length := by
  unfold setAll
  induction ps generalizing v with
  | nil => rfl
  | cons p ps ih => rw [List.foldl_cons, ih, List.length_set]

theorem setAll_get (ps : List Nat) (v : List R) (s : R) (q : Nat) :
    (setAll v ps s)[q]? = if q ∈ ps ∧ q < v.length then some s else v[q]? := by
  unfold setAll
  induction ps generalizing v with
  | nil => simp
  | cons p ps ih =>
    rw [List.foldl_cons, ih, List.length_set, List.getElem?_set]
    by_cases hq : q < v.length
    · by_cases hp : p = q
      · subst hp; simp [hq]
      · simp [hq, hp, Ne.symm hp]
    · have hv : v[q]? = none := List.getElem?_eq_none (by omega)
      rw [if_neg (by tauto), if_neg (c := q ∈ p :: ps ∧ q < v.length) (by tauto), hv]
      by_cases hp : p = q
      · rw [if_pos hp, if_neg (by omega)]
      · rw [if_neg hp]

/-- Indices in the range of the dimension. -/
def InRange (n : Nat) (i j k l : Nat) : Prop := (1 ≤ i ∧ i ≤ n) ∧ (1 ≤ j ∧ j ≤ n) ∧ (1 ≤ k ∧ k ≤ n) ∧ (1 ≤ l ∧ l ≤ n)

theorem digit {n a b a' b' : Nat} (ha : a < n) (ha' : a' < n) : a + n*b = a' + n*b' ↔ a = a' ∧ b = b' := by
  constructor
  · intro h
    have h1 : (a + n*b) % n = (a' + n*b') % n := by rw [h]
    rw [Nat.add_mul_mod_self_left, Nat.add_mul_mod_self_left, Nat.mod_eq_of_lt ha, Nat.mod_eq_of_lt ha'] at h1
    subst h1
    exact ⟨rfl, Nat.eq_of_mul_eq_mul_left (by omega) (by omega : n*b = n*b')⟩
  · rintro ⟨rfl, rfl⟩; rfl

theorem digit_lt {n a b N : Nat} (ha : a < n) (hb : b < N) : a + n*b < n*N :=
  calc a + n*b < n + n*b := by omega
    _ = n*(b+1) := by ring
    _ ≤ n*N := Nat.mul_le_mul_left n hb

/-- The components of a tensor are stored in different places, all within the vector of components. -/
theorem C91_places {n i j k l : Nat} (h : InRange n i j k l) :
    index n i j k l < n*n*(n*n) ∧
      ∀ i' j' k' l', InRange n i' j' k' l' → (index n i j k l = index n i' j' k' l' ↔ i = i' ∧ j = j' ∧ k = k' ∧ l = l') := by
  obtain ⟨hi, hj, hk, hl⟩ := h
  constructor
  · have h1 := digit_lt (n := n) (a := k-1) (b := l-1) (N := n) (by omega) (by omega)
    have h2 := digit_lt (n := n) (a := j-1) (N := n*n) (by omega) h1
    have h3 := digit_lt (n := n) (a := i-1) (N := n*(n*n)) (by omega) h2
    have e : n*(n*(n*n)) = n*n*(n*n) := by ring
    unfold index
    omega
  · rintro i' j' k' l' ⟨hi', hj', hk', hl'⟩
    unfold index
    rw [digit (by omega) (by omega), digit (by omega) (by omega), digit (by omega) (by omega)]
    omega

theorem index_eq {n i j k l i' j' k' l' : Nat} (h : InRange n i j k l) (h' : InRange n i' j' k' l') :
    index n i j k l = index n i' j' k' l' ↔ i = i' ∧ j = j' ∧ k = k' ∧ l = l' := (C91_places h).2 _ _ _ _ h'

theorem mem_diagonal {n i j k l : Nat} (h : InRange n i j k l) : index n i j k l ∈ diagonal n ↔ i = j ∧ j = k ∧ k = l := by
  unfold diagonal
  rw [List.mem_map]
  constructor
  · rintro ⟨a, ha, e⟩
    rw [List.mem_range'_1] at ha
    have := (index_eq (n := n) ⟨by omega, by omega, by omega, by omega⟩ h).1 e
    omega
  · rintro ⟨rfl, rfl, rfl⟩
    obtain ⟨hi, -⟩ := h
    exact ⟨i, by rw [List.mem_range'_1]; omega, rfl⟩

theorem mem_pairs {n i j k l : Nat} (h : InRange n i j k l) :
    index n i j k l ∈ ((List.range' 1 n).flatMap fun i => (List.range' 1 n).map fun j => index n i i j j) ↔ i = j ∧ k = l := by
  rw [List.mem_flatMap]
  constructor
  · rintro ⟨a, ha, hb⟩
    obtain ⟨b, hb, e⟩ := List.mem_map.1 hb
    rw [List.mem_range'_1] at ha hb
    have := (index_eq (n := n) ⟨by omega, by omega, by omega, by omega⟩ h).1 e
    omega
  · rintro ⟨rfl, rfl⟩
    obtain ⟨hi, _, hk, _⟩ := h
    exact ⟨i, by rw [List.mem_range'_1]; omega, List.mem_map.2 ⟨k, by rw [List.mem_range'_1]; omega, rfl⟩⟩

/-- The components of the tensor created from a scale: `scale` where all four indices are equal, or (with `makeJ`) where the first two are equal and
the last two are equal, and zero elsewhere. -/
theorem C91_create [Zero R] [DecidableEq R] (nd : Nat) (scale : R) (makeJ : Bool) {i j k l : Nat} (h : InRange nd i j k l) :
    (create nd scale makeJ).get i j k l = some (if (if makeJ then i = j ∧ k = l else i = j ∧ j = k ∧ k = l) then scale else 0) := by
  have hp := (C91_places h).1
  show (create nd scale makeJ).v[index nd i j k l]? = _
  unfold create
  dsimp only
  by_cases c : scale = 0
  · rw [if_neg (by simpa using c), List.getElem?_replicate, if_pos hp, c, ite_self]
  · rw [if_pos c, setAll_get, List.length_replicate, List.getElem?_replicate, if_pos hp]
    cases makeJ with
    | true =>
      simp only [if_true, mem_pairs h, hp, and_true]
      split <;> rfl
    | false =>
      simp only [Bool.false_eq_true, if_false, mem_diagonal h, hp, and_true]
      split <;> rfl

/-- The tensor with `makeJ` maps a second-order tensor to its trace times the scaled identity, the other one to its scaled diagonal (it is not the
identity on second-order tensors). -/
theorem C91_contract [Ring R] [DecidableEq R] (nd : Nat) (scale : R) (A : Nat → Nat → R) {i j : Nat} (hi : 1 ≤ i ∧ i ≤ nd) (hj : 1 ≤ j ∧ j ≤ nd) :
    contract nd (fun i j k l => ((create nd scale true).get i j k l).getD 0) A i j = (if i = j then scale * trace2 nd A else 0) ∧
      contract nd (fun i j k l => ((create nd scale false).get i j k l).getD 0) A i j = if i = j then scale * A i i else 0 := by
  unfold contract trace2
  constructor
  · have : ∀ k ∈ Finset.Icc 1 nd, ∑ l ∈ Finset.Icc 1 nd, ((create nd scale true).get i j k l).getD 0 * A k l = if i = j then scale * A k k else 0 := by
      intro k hk
      have hk' := Finset.mem_Icc.1 hk
      rw [Finset.sum_eq_single_of_mem k hk]
      · rw [C91_create nd scale true ⟨hi, hj, hk', hk'⟩]
        by_cases c : i = j <;> simp [c]
      · intro l hl hne
        have hl' := Finset.mem_Icc.1 hl
        rw [C91_create nd scale true ⟨hi, hj, hk', hl'⟩]
        simp [Ne.symm hne]
    rw [Finset.sum_congr rfl this]
    by_cases c : i = j
    · simp only [c, if_true, Finset.mul_sum]
    · simp only [c, if_false, Finset.sum_const_zero]
  · have : ∀ k ∈ Finset.Icc 1 nd, ∑ l ∈ Finset.Icc 1 nd, ((create nd scale false).get i j k l).getD 0 * A k l =
        if i = j ∧ j = k then scale * A k k else 0 := by
      intro k hk
      have hk' := Finset.mem_Icc.1 hk
      rw [Finset.sum_eq_single_of_mem k hk]
      · rw [C91_create nd scale false ⟨hi, hj, hk', hk'⟩]
        by_cases c : i = j ∧ j = k <;> simp [c]
      · intro l hl hne
        have hl' := Finset.mem_Icc.1 hl
        rw [C91_create nd scale false ⟨hi, hj, hk', hl'⟩]
        simp [Ne.symm hne]
    rw [Finset.sum_congr rfl this, Finset.sum_eq_single_of_mem i (Finset.mem_Icc.2 hi)]
    · by_cases c : i = j
      · subst c; simp
      · simp [c]
    · intro k _ hne
      rw [if_neg (by omega)]

/-- Assignment of a component changes exactly this component. -/
theorem C91_put (T : Tensor R) (hs : T.symm = false) (hv : T.v.length = T.n*T.n*(T.n*T.n)) (x : R) {i j k l : Nat} (h : InRange T.n i j k l) :
    ∃ T', T.put i j k l x = some T' ∧ T'.n = T.n ∧ T'.v.length = T.v.length ∧ ∀ i' j' k' l', InRange T.n i' j' k' l' →
      T'.get i' j' k' l' = if i' = i ∧ j' = j ∧ k' = k ∧ l' = l then some x else T.get i' j' k' l' := by
  have hp := (C91_places h).1
  have hpos : ∀ a b c d, T.pos a b c d = index T.n a b c d := by intro a b c d; unfold Tensor.pos; rw [hs]; rfl
  refine ⟨_, if_pos (by rw [hpos, hv]; exact hp), rfl, List.length_set, ?_⟩
  intro i' j' k' l' h'
  show (T.v.set (T.pos i j k l) x)[Tensor.pos _ i' j' k' l']? = if _ then _ else T.v[T.pos i' j' k' l']?
  have : Tensor.pos { T with v := T.v.set (T.pos i j k l) x } i' j' k' l' = T.pos i' j' k' l' := rfl
  rw [this, hpos, hpos, List.getElem?_set, hv]
  by_cases c : i' = i ∧ j' = j ∧ k' = k ∧ l' = l
  · obtain ⟨rfl, rfl, rfl, rfl⟩ := c
    rw [if_pos rfl, if_pos hp, if_pos (by simp)]
  · rw [if_neg c, if_neg]
    intro e
    have := (index_eq h h').1 e
    exact c (by omega)

/-- The tensor from a vector of components has these components, the first index running fastest; too few components are reported. -/
theorem C91_vector (x : List R) (nd : Nat) :
    ((ofVector x nd).2 = true ↔ nd*nd*(nd*nd) ≤ x.length) ∧
      ∀ i j k l, InRange nd i j k l → (ofVector x nd).1.get i j k l = x[(i-1) + nd*((j-1) + nd*((k-1) + nd*(l-1)))]? := by
  unfold ofVector
  constructor
  · simp
  · intro i j k l h
    have hp := (C91_places h).1
    show (if _ then _ else _ : List R)[index nd i j k l]? = x[index nd i j k l]?
    split
    · rfl
    · rw [List.getElem?_take_of_lt hp]

/-- The assigned tensor is equal to the source, whatever it was before. -/
theorem C91_assign [Zero R] (T S : Tensor R) (hT : T.symm = false) (hS : S.symm = false) (hm : S.m = S.n*S.n) (hv : S.v.length = S.m*S.m) :
    assign T S = some S := by
  unfold assign matDim
  rw [hT]
  simp only [Bool.false_eq_true, if_false]
  have hl : ((T.v ++ List.replicate (S.n*S.n*(S.n*S.n) - T.v.length) 0).take (S.n*S.n*(S.n*S.n))).length = S.n*S.n*(S.n*S.n) := by
    rw [List.length_take, List.length_append, List.length_replicate]; omega
  rw [hm] at hv
  rw [if_pos (by omega), List.drop_eq_nil_of_le (by omega), List.append_nil, ← hm, ← hS]

theorem diagonal_lt {n : Nat} : ∀ p ∈ diagonal n, p < n*n*(n*n) := by
  intro p hp
  obtain ⟨a, ha, rfl⟩ := List.mem_map.1 hp
  rw [List.mem_range'_1] at ha
  exact (C91_places ⟨by omega, by omega, by omega, by omega⟩).1

theorem diagonal_nodup (n : Nat) : (diagonal n).Nodup := by
  unfold diagonal
  refine List.Nodup.map_on ?_ (List.nodup_range' (step := 1) (by omega))
  intro a ha b hb e
  rw [List.mem_range'_1] at ha hb
  exact ((index_eq (n := n) ⟨by omega, by omega, by omega, by omega⟩ ⟨by omega, by omega, by omega, by omega⟩).1 e).1

theorem addAll_get [Add R] (ps : List Nat) (hn : ps.Nodup) (v : List R) (s : R) (q : Nat) :
    (ps.foldl (fun v p => v.modify p (· + s)) v)[q]? = if q ∈ ps then v[q]?.map (· + s) else v[q]? := by
  induction ps generalizing v with
  | nil => simp
  | cons p ps ih =>
    rw [List.foldl_cons, ih (List.nodup_cons.1 hn).2, List.getElem?_modify]
    have := (List.nodup_cons.1 hn).1
    by_cases hp : p = q
    · subst hp; simp [this]
    · simp [hp, Ne.symm hp]

/-- Assigning a number gives that number where all indices are equal and zero elsewhere; adding a number adds it there. -/
theorem C91_number [AddZeroClass R] (T : Tensor R) (hT : T.symm = false) (hv : T.v.length = T.n*T.n*(T.n*T.n)) (x : R) :
    (∃ T', assignValue T x = some T' ∧ T'.n = T.n ∧ ∀ i j k l, InRange T.n i j k l →
      T'.get i j k l = some (if i = j ∧ j = k ∧ k = l then x else 0)) ∧
    (∃ T', addValue T x = some T' ∧ T'.n = T.n ∧ ∀ i j k l, InRange T.n i j k l →
      T'.get i j k l = if i = j ∧ j = k ∧ k = l then (T.get i j k l).map (· + x) else T.get i j k l) := by
  have hd : ∀ p ∈ diagonal T.n, p < T.v.length := by rw [hv]; exact diagonal_lt
  obtain ⟨sy, n, m, v⟩ := T
  dsimp only at hT hv hd
  subst hT
  constructor
  · refine ⟨_, if_pos hd, rfl, ?_⟩
    intro i j k l h
    have hp := (C91_places h).1
    have hp' : index n i j k l < v.length := by rw [hv]; exact hp
    show (setAll (v.map fun _ => (0 : R)) (diagonal n) x)[index n i j k l]? = _
    rw [setAll_get, List.length_map, List.getElem?_map, List.getElem?_eq_getElem hp']
    simp only [mem_diagonal h, hp', and_true]
    split <;> rfl
  · refine ⟨_, if_pos hd, rfl, ?_⟩
    intro i j k l h
    show ((diagonal n).foldl (fun v p => v.modify p (· + x)) v)[index n i j k l]? = _
    rw [addAll_get _ (diagonal_nodup n)]
    simp only [mem_diagonal h]
    rfl

example : InRange 3 1 2 3 2 := by unfold InRange; omega
example : (create 2 (5 : ℤ) true).v = [5, 0, 0, 5, 0, 0, 0, 0, 0, 0, 0, 0, 5, 0, 0, 5] := by decide

end IFEM.Tens4
