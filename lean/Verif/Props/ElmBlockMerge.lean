import Verif.Props.ElmBlock
/-!
# C90: Merging of blocks of visualization elements
-/
namespace IFEM.VBlk
open IFEM.Spec

variable {P Q : Type}

theorem mergePoints_spec (same : P → P → Bool) (uniq : Bool) (Xs coord : List P) (nums : List Nat) :
    ∃ extra js, mergePoints same uniq Xs coord nums = (coord ++ extra, nums ++ js) ∧ js.length = Xs.length ∧
      (∀ (k : Nat) (X : P), Xs[k]? = some X → ∃ (j : Nat) (Y : P), js[k]? = some j ∧ (coord ++ extra)[j]? = some Y ∧ (Y = X ∨ (uniq = true ∧ same Y X = true))) ∧
      (uniq = false → extra = Xs) ∧
      (uniq = true → (∀ X ∈ Xs, ∃ c ∈ coord, same c X = true) → extra = []) := by
  induction Xs generalizing coord nums with
  | nil => exact ⟨[], [], by simp [mergePoints], rfl, fun k X h => absurd h (by simp), fun _ => rfl, fun _ _ => rfl⟩
  | cons X Xs ih =>
    have hstep : mergePoints same uniq (X :: Xs) coord nums = match (if uniq then coord.findIdx? (fun c => same c X) else none) with
      | none => mergePoints same uniq Xs (coord ++ [X]) (nums ++ [coord.length])
      | some k => mergePoints same uniq Xs coord (nums ++ [k]) := rfl
    rw [hstep]
    cases hf : (if uniq then coord.findIdx? (fun c => same c X) else none) with
    | none =>
      dsimp only
      obtain ⟨extra, js, e, hl, hk, h1, h2⟩ := ih (coord ++ [X]) (nums ++ [coord.length])
      refine ⟨X :: extra, coord.length :: js, by rw [e]; simp, by simp [hl], fun k Y hY => ?_, fun hu => by rw [h1 hu], fun hu hall => ?_⟩
      · cases k with
        | zero =>
          obtain rfl : X = Y := by simpa using hY
          exact ⟨coord.length, X, rfl, by simp, Or.inl rfl⟩
        | succ k =>
          obtain ⟨j, Z, a, b, c⟩ := hk k Y (by simpa using hY)
          refine ⟨j, Z, by simpa using a, ?_, c⟩
          rw [List.append_assoc] at b
          exact b
      · rw [if_pos hu] at hf
        obtain ⟨c, hc, hs⟩ := hall X List.mem_cons_self
        rw [List.findIdx?_eq_none_iff] at hf
        have := hf c hc
        rw [hs] at this
        exact absurd this (by simp)
    | some i =>
      dsimp only
      have hu : uniq = true := by
        by_contra c
        rw [if_neg c] at hf
        exact absurd hf (by simp)
      rw [if_pos hu] at hf
      obtain ⟨extra, js, e, hl, hk, h1, h2⟩ := ih coord (nums ++ [i])
      refine ⟨extra, i :: js, by rw [e]; simp, by simp [hl], fun k Y hY => ?_, fun hn => absurd hu (by rw [hn]; simp),
        fun _ hall => h2 hu fun x hx => hall x (List.mem_cons_of_mem _ hx)⟩
      cases k with
      | zero =>
        obtain rfl : X = Y := by simpa using hY
        obtain ⟨hlt, hs, -⟩ := List.findIdx?_eq_some_iff_getElem.1 hf
        refine ⟨i, coord[i], rfl, ?_, Or.inr ⟨hu, hs⟩⟩
        rw [List.getElem?_append_left hlt, List.getElem?_eq_getElem hlt]
      | succ k =>
        obtain ⟨j, Z, a, b, c⟩ := hk k Y (by simpa using hY)
        exact ⟨j, Z, by simpa using a, b, c⟩

theorem mergeNodes_cons (nums : List Nat) (x : Int) (xs : List Int) : mergeNodes nums (x :: xs) =
    if x < 0 then (mergeNodes nums xs).map fun r => x :: r
    else match nums[x.toNat]? with
      | none => none
      | some k => (mergeNodes nums xs).map fun r => (k : Int) :: r := rfl

theorem mergeNodes_elm (nums : List Nat) (e : List Nat) (he : ∀ k ∈ e, k < nums.length) (xs ys : List Int) (h : mergeNodes nums xs = some ys) :
    mergeNodes nums (cast e ++ xs) = some (cast (e.map fun k : Nat => nums.getD k 0) ++ ys) := by
  induction e with
  | nil => exact h
  | cons k e ih =>
    show mergeNodes nums ((k : Int) :: (cast e ++ xs)) = _
    rw [mergeNodes_cons, if_neg (by omega), Int.toNat_natCast, List.getElem?_eq_getElem (he k List.mem_cons_self),
      ih fun x hx => he x (List.mem_cons_of_mem _ hx)]
    simp [cast, List.getD_eq_getElem?_getD, List.getElem?_eq_getElem (he k List.mem_cons_self)]

theorem mergeNodes_uniform (nums : List Nat) (els : List (List Nat)) (he : ∀ e ∈ els, ∀ k ∈ e, k < nums.length) :
    mergeNodes nums (els.flatMap cast) = some ((els.map fun e => e.map fun k : Nat => nums.getD k 0).flatMap cast) := by
  induction els with
  | nil => rfl
  | cons e els ih =>
    rw [List.flatMap_cons, mergeNodes_elm nums e (he e List.mem_cons_self) _ _ (ih fun x hx => he x (List.mem_cons_of_mem _ hx))]
    rfl

theorem mergeNodes_mixed (nums : List Nat) (els : List (List Nat)) (he : ∀ e ∈ els, ∀ k ∈ e, k < nums.length) :
    mergeNodes nums (els.flatMap fun e => cast e ++ [-1]) =
      some ((els.map fun e => e.map fun k : Nat => nums.getD k 0).flatMap fun e => cast e ++ [-1]) := by
  induction els with
  | nil => rfl
  | cons e els ih =>
    rw [List.flatMap_cons, List.append_assoc]
    have h1 := ih fun x hx => he x (List.mem_cons_of_mem _ hx)
    have h2 : mergeNodes nums ([-1] ++ els.flatMap fun e => cast e ++ [-1]) =
        some ([-1] ++ (els.map fun e => e.map fun k : Nat => nums.getD k 0).flatMap fun e => cast e ++ [-1]) := by
      show mergeNodes nums (-1 :: (els.flatMap fun e => cast e ++ [-1])) = _
      rw [mergeNodes_cons, if_pos (by decide), h1]; rfl
    rw [mergeNodes_elm nums e (he e List.mem_cons_self) _ _ h2, List.map_cons, List.flatMap_cons, List.append_assoc]

/-- Two blocks with the same kind of elements are merged: the elements of the second follow those of the first, with the same corner points
(up to the comparison of points if equal points are joined), and their numbers continue after the largest number of the first.  No point is
added if all points of the second block are found in the first. -/
theorem C90_merge (same : P → P → Bool) (uniq : Bool) {B O : Block P Q} {els els' : List (List Nat)} {ids ids' : List Int}
    (hB : Stores B els ids) (hO : Stores O els' ids') (hn : B.nen = O.nen) :
    ∃ B' nums els'', merge same B O uniq = some (B', nums) ∧
      Stores B' (els ++ els'') (if ids = [] then ids' else ids ++ ids'.map fun i => maxElm ids + i) ∧
      corners B'.coord els = corners B.coord els ∧
      SameCorners (fun x y => uniq = true ∧ same y x = true) (corners O.coord els') (corners B'.coord els'') ∧
      (∃ extra, B'.coord = B.coord ++ extra ∧ (uniq = false → extra = O.coord) ∧
        (uniq = true → (∀ X ∈ O.coord, ∃ c ∈ B.coord, same c X = true) → extra = [])) ∧
      nums.length = O.coord.length := by
  obtain ⟨extra, js, e, hl, hk, h1, h2⟩ := mergePoints_spec same uniq O.coord B.coord []
  rw [List.nil_append] at e
  have hlt : ∀ x ∈ els', ∀ k ∈ x, k < js.length := by
    intro x hx k hkx
    rw [hl]; exact hO.nodes x hx k hkx
  have hjs : ∀ k, k < js.length → js.getD k 0 < (B.coord ++ extra).length ∧
      ∃ X Y, O.coord[k]? = some X ∧ (B.coord ++ extra)[js.getD k 0]? = some Y ∧ (Y = X ∨ (uniq = true ∧ same Y X = true)) := by
    intro k hkl
    obtain ⟨j, Y, a, b, c⟩ := hk k O.coord[k] (List.getElem?_eq_getElem (by omega))
    have : js.getD k 0 = j := by rw [List.getD_eq_getElem?_getD, a]; rfl
    rw [this]
    exact ⟨(List.getElem?_eq_some_iff.1 b).1, _, Y, List.getElem?_eq_getElem (by omega), b, c⟩
  obtain ⟨b1, b2⟩ := conn_eq hB
  obtain ⟨o1, o2⟩ := conn_eq hO
  obtain ⟨m, em, hm⟩ : ∃ m, mergeNodes js O.mmnpc = some m ∧
      (if B.nen > 0 then m = ((els'.map fun e => e.map fun k : Nat => js.getD k 0).flatMap cast)
       else m = (els'.map fun e => e.map fun k : Nat => js.getD k 0).flatMap fun e => cast e ++ [-1]) := by
    by_cases c : B.nen > 0
    · refine ⟨_, ?_, by rw [if_pos c]⟩
      rw [(o1 (by omega)).1]
      exact mergeNodes_uniform js els' hlt
    · refine ⟨_, ?_, by rw [if_neg c]⟩
      rw [o2 (by omega)]
      exact mergeNodes_mixed js els' hlt
  refine ⟨_, js, els'.map fun e => e.map fun k : Nat => js.getD k 0, by unfold merge; rw [e]; dsimp only; rw [em], ⟨?_, ?_, ?_, ?_⟩, ?_, ?_, ⟨extra, rfl, h1, h2⟩, hl⟩
  · dsimp only
    rw [hB.names, hO.names]
  · rw [List.length_append, List.length_map]
    have hc1 := hB.count
    have hc2 := hO.count
    split
    · next c => rw [c] at hc1; simp only [List.length_nil] at hc1; omega
    · rw [List.length_append, List.length_map]; omega
  · intro x hx k hkx
    dsimp only
    rcases List.mem_append.1 hx with hx | hx
    · have := hB.nodes x hx k hkx
      rw [List.length_append]; omega
    · obtain ⟨y, hy, rfl⟩ := List.mem_map.1 hx
      obtain ⟨i, hi, rfl⟩ := List.mem_map.1 hkx
      exact (hjs i (hlt y hy i hi)).1
  · dsimp only
    by_cases c : B.nen > 0
    · rw [if_pos c] at hm ⊢
      refine ⟨?_, fun x hx => ?_⟩
      · rw [(b1 c).1, hm, List.flatMap_append]; rfl
      · rcases List.mem_append.1 hx with hx | hx
        · exact (b1 c).2 x hx
        · obtain ⟨y, hy, rfl⟩ := List.mem_map.1 hx
          rw [List.length_map, (o1 (by omega)).2 y hy, hn]
    · rw [if_neg c] at hm ⊢
      rw [b2 (by omega), hm, List.flatMap_append]; rfl
  · unfold corners
    apply List.map_congr_left
    intro x hx
    apply List.map_congr_left
    intro k hkx
    dsimp only
    rw [List.getElem?_append_left (hB.nodes x hx k hkx)]
  · unfold SameCorners corners
    rw [List.map_map, List.forall₂_map_left_iff, List.forall₂_map_right_iff, List.forall₂_same]
    intro x hx
    dsimp only [Function.comp]
    rw [List.map_map, List.forall₂_map_left_iff, List.forall₂_map_right_iff, List.forall₂_same]
    intro k hkx
    obtain ⟨-, X, Y, a, b, c⟩ := hjs k (hlt x hx k hkx)
    refine ⟨X, Y, a, b, ?_⟩
    rcases c with rfl | c
    · exact Or.inl rfl
    · exact Or.inr c

theorem foldl_max_ge (l : List Int) (a : Int) : a ≤ l.foldl max a ∧ ∀ x ∈ l, x ≤ l.foldl max a := by
  induction l generalizing a with
  | nil => exact ⟨le_refl _, fun x hx => absurd hx (by simp)⟩
  | cons y l ih =>
    obtain ⟨h1, h2⟩ := ih (max a y)
    rw [List.foldl_cons]
    refine ⟨by omega, fun x hx => ?_⟩
    rcases List.mem_cons.1 hx with rfl | hx
    · omega
    · exact h2 x hx

/-- If the external numbers are positive and different in each of the blocks, they are different in the merged block. -/
theorem C90_merge_numbers (ids ids' : List Int) (h1 : ids.Nodup) (h2 : ids'.Nodup) (hp : ∀ i ∈ ids', 1 ≤ i) :
    (if ids = [] then ids' else ids ++ ids'.map fun i => maxElm ids + i).Nodup := by
  split
  · exact h2
  · next c =>
    refine List.nodup_append.2 ⟨h1, List.Pairwise.map (fun i => maxElm ids + i) (fun a b (h : a ≠ b) => by simpa using h) h2, ?_⟩
    intro a ha b hb e
    obtain ⟨i, hi, rfl⟩ := List.mem_map.1 hb
    have := hp i hi
    have : a ≤ maxElm ids := by
      cases ids with
      | nil => exact absurd rfl c
      | cons y l =>
        obtain ⟨g1, g2⟩ := foldl_max_ge l y
        rcases List.mem_cons.1 ha with rfl | ha
        · exact g1
        · exact g2 a ha
    omega

/-- Two triangles sharing an edge, equal points joined: a point is added; the second element gets number 8. -/
example : (merge (fun a b => a == b) (⟨3, [10, 20, 30], [], [0, 1, 2], [7], []⟩ : Block ℤ Unit) ⟨3, [20, 40, 30], [], [0, 1, 2], [1], []⟩ true).map
    (fun r => (r.1.coord, r.1.mmnpc, r.1.minex, r.2)) = some ([10, 20, 30, 40], [0, 1, 2, 1, 3, 2], [7, 8], [1, 3, 2]) := by decide

example : Stores (⟨3, [10, 20, 30], [], [0, 1, 2], [7], []⟩ : Block ℤ Unit) [[0, 1, 2]] [7] :=
  ⟨rfl, rfl, by decide, by rw [if_pos (by decide)]; exact ⟨rfl, by decide⟩⟩

/-- Finding F180: the parameters of the points of the second block are lost. -/
theorem C90_merge_parameters (same : P → P → Bool) (uniq : Bool) (B O B' : Block P Q) (nums : List Nat)
    (h : merge same B O uniq = some (B', nums)) : B'.param = B.param ∧ B'.elmIdx = B.elmIdx := by
  unfold merge at h
  dsimp only at h
  split at h
  · exact absurd h (by simp)
  · obtain ⟨rfl, -⟩ := Prod.mk.inj (Option.some.inj h)
    exact ⟨rfl, rfl⟩

end IFEM.VBlk
