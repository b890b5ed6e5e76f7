import Verif.Props.ElmBlock
import Mathlib.Tactic.IntervalCases
/-!
# C90: Removal of elements; spheres and cylinders
-/
namespace IFEM.VBlk
open IFEM.Spec

variable {P Q : Type}

/-- The elements whose external number is not `iel`. -/
def others (iel : Int) (ids : List Int) (els : List (List Nat)) : List (Int × List Nat) := (ids.zip els).filter fun p => p.1 ≠ iel

theorem stores_erase {B : Block P Q} {els : List (List Nat)} {ids : List Int} (hn : B.nen > 0) (h : Stores B els ids) (i : Nat) (hi : i < els.length) :
    Stores { B with mmnpc := eraseElm B i, minex := B.minex.eraseIdx i } (els.eraseIdx i) (ids.eraseIdx i) := by
  obtain ⟨h1, h2⟩ := (conn_eq h).1 hn
  refine ⟨by dsimp only; rw [h.names], ?_, fun e he => h.nodes e (List.mem_of_mem_eraseIdx he), ?_⟩
  · have := h.count
    rw [List.length_eraseIdx, List.length_eraseIdx, this]
  · dsimp only
    rw [if_pos hn]
    refine ⟨?_, fun e he => h2 e (List.mem_of_mem_eraseIdx he)⟩
    unfold eraseElm
    rw [if_pos hn, h1]
    obtain ⟨-, k2, k3⟩ := uniform_slice B.nen els h2 i els[i] (List.getElem?_eq_getElem hi)
    rw [k2, k3, ← List.flatMap_append, List.eraseIdx_eq_take_drop_succ]
    rfl

theorem removeLoop_spec (iel : Int) (k i : Nat) (B : Block P Q) (els : List (List Nat)) (ids : List Int) (hn : B.nen > 0) (h : Stores B els ids)
    (hk : ids.length ≤ i + k) (hi : i ≤ ids.length) :
    ∃ els' ids', Stores (removeLoop iel k i B) els' ids' ∧ (removeLoop iel k i B).coord = B.coord ∧
      ids'.zip els' = (ids.zip els).take i ++ ((ids.zip els).drop i).filter (fun p => p.1 ≠ iel) := by
  have hc := h.count
  induction k generalizing i B els ids with
  | zero =>
    refine ⟨els, ids, h, rfl, ?_⟩
    rw [List.take_of_length_le (by rw [List.length_zip]; omega), List.drop_of_length_le (by rw [List.length_zip]; omega)]
    simp
  | succ k ih =>
    unfold removeLoop
    rw [h.names]
    cases hg : ids[i]? with
    | none =>
      have := List.getElem?_eq_none_iff.1 hg
      refine ⟨els, ids, h, rfl, ?_⟩
      rw [List.take_of_length_le (by rw [List.length_zip]; omega), List.drop_of_length_le (by rw [List.length_zip]; omega)]
      simp
    | some e =>
      have hlt := (List.getElem?_eq_some_iff.1 hg).1
      have hz : (ids.zip els).drop i = (e, els[i]'(by omega)) :: (ids.zip els).drop (i+1) := by
        rw [List.drop_eq_getElem_cons (by rw [List.length_zip]; omega), List.getElem_zip]
        rw [(List.getElem?_eq_some_iff.1 hg).2]
      dsimp only
      by_cases c : e = iel
      · rw [if_pos c]
        have hs := stores_erase hn h i (by omega)
        obtain ⟨els', ids', g1, g2, g3⟩ := ih i { B with mmnpc := eraseElm B i, minex := B.minex.eraseIdx i } (els.eraseIdx i) (ids.eraseIdx i) hn hs
          (by rw [List.length_eraseIdx, if_pos hlt]; omega) (by rw [List.length_eraseIdx, if_pos hlt]; omega) hs.count
        rw [h.names] at g1 g2
        refine ⟨els', ids', g1, g2, ?_⟩
        have hzip : (ids.eraseIdx i).zip (els.eraseIdx i) = (ids.zip els).eraseIdx i := by
          rw [List.eraseIdx_eq_take_drop_succ, List.eraseIdx_eq_take_drop_succ, List.eraseIdx_eq_take_drop_succ, List.zip_append]
          · simp only [List.zip, List.take_zipWith, List.drop_zipWith]
          · rw [List.length_take, List.length_take]; omega
        rw [g3, hzip, hz, List.filter_cons_of_neg (by simp [c]), List.eraseIdx_eq_take_drop_succ]
        have ht : ((ids.zip els).take i).length = i := by rw [List.length_take, List.length_zip]; omega
        rw [List.take_left' ht, List.drop_left' ht]
      · rw [if_neg c]
        obtain ⟨els', ids', g1, g2, g3⟩ := ih (i+1) B els ids hn h (by omega) (by omega) hc
        refine ⟨els', ids', g1, g2, ?_⟩
        rw [g3, hz, List.filter_cons_of_pos (by simp [c]), List.take_add_one]
        rw [List.getElem?_eq_getElem (by rw [List.length_zip]; omega), List.getElem_zip, (List.getElem?_eq_some_iff.1 hg).2]
        simp

/-- In a block with elements of one type, all elements with the given external number are removed; the other elements, their order and their points
stay. -/
theorem C90_remove {B : Block P Q} {els : List (List Nat)} {ids : List Int} (hn : B.nen > 0) (h : Stores B els ids) (iel : Int) :
    ∃ els' ids', Stores (removeElement B iel) els' ids' ∧ (removeElement B iel).coord = B.coord ∧ ids'.zip els' = others iel ids els := by
  have := removeLoop_spec iel B.minex.length 0 B els ids hn h (by rw [h.names]; omega) (Nat.zero_le _)
  simpa [removeElement, others] using this

/-! ## Mixed types -/

theorem findElm_cons (i : Nat) (x : Int) (xs : List Int) (ip elm : Nat) (it1 : Option Nat) : findElm i (x :: xs) ip elm it1 =
    if x < 0 ∧ elm + 1 = i + 1 then (it1, some (ip+1))
    else findElm i xs (ip+1) (if x < 0 then elm + 1 else elm) (if (if x < 0 then elm + 1 else elm) = i ∧ it1 = none then some ip else it1) := rfl

/-- The nodes of an element before the searched one are passed. -/
theorem findElm_pass (i : Nat) (e : List Nat) (xs : List Int) (ip elm : Nat) (h : elm < i) :
    findElm i (cast e ++ xs) ip elm none = findElm i xs (ip + e.length) elm none := by
  induction e generalizing ip with
  | nil => rfl
  | cons k e ih =>
    show findElm i ((k : Int) :: (cast e ++ xs)) ip elm none = _
    rw [findElm_cons, if_neg (by omega), if_neg (by omega), if_neg (by omega), ih, List.length_cons]
    congr 1; omega

theorem findElm_in (i : Nat) (e : List Nat) (xs : List Int) (ip q : Nat) :
    findElm i (cast e ++ (-1 :: xs)) ip i (some q) = (some q, some (ip + e.length + 1)) := by
  induction e generalizing ip with
  | nil =>
    show findElm i (-1 :: xs) ip i (some q) = _
    rw [findElm_cons, if_pos (by omega)]; rfl
  | cons k e ih =>
    show findElm i ((k : Int) :: (cast e ++ (-1 :: xs))) ip i (some q) = _
    rw [findElm_cons, if_neg (by omega), if_neg (by omega), if_neg (by simp), ih, List.length_cons]
    congr 2; omega

/-- The terminated nodes of all elements. -/
def closed (els : List (List Nat)) : List Int := els.flatMap fun e => cast e ++ [-1]

theorem findElm_conn (i elm : Nat) (pre : List (List Nat)) (a e : List Nat) (post : List (List Nat)) (ip : Nat) (hi : i = elm + pre.length + 1) :
    findElm i (closed (pre ++ [a, e] ++ post)) ip elm none =
      (some (ip + (closed pre).length + a.length), some (ip + (closed pre).length + a.length + 1 + e.length + 1)) := by
  induction pre generalizing ip elm with
  | nil =>
    have : closed ([] ++ [a, e] ++ post) = cast a ++ (-1 :: (cast e ++ (-1 :: closed post))) := by simp [closed]
    rw [this, findElm_pass i a _ ip elm (by simp only [List.length_nil] at hi; omega), findElm_cons]
    simp only [List.length_nil] at hi
    rw [if_neg (by omega), if_pos (by decide), if_pos ⟨by omega, rfl⟩, show elm + 1 = i by omega, findElm_in]
    rfl
  | cons p pre ih =>
    have : closed (p :: pre ++ [a, e] ++ post) = cast p ++ (-1 :: closed (pre ++ [a, e] ++ post)) := by simp [closed]
    rw [this, findElm_pass i p _ ip elm (by omega), findElm_cons]
    simp only [List.length_cons] at hi
    rw [if_neg (by omega), if_pos (by decide), if_neg (by omega), ih (elm+1) _ (by omega)]
    have hl : (closed (p :: pre)).length = p.length + 1 + (closed pre).length := by simp [closed, cast]; omega
    rw [hl]
    congr 2 <;> omega

/-- Finding F181: in a block of mixed types, the removal of element `e`, not the first one, also removes the end mark of the element `a` before
it, so that the nodes of `a` and those of the element after `e` are taken for one element (or `a` has no end). -/
theorem C90_remove_mixed (B : Block P Q) (pre post : List (List Nat)) (a e : List Nat) (hn : B.nen = 0)
    (hB : B.mmnpc = closed (pre ++ [a, e] ++ post)) : eraseElm B (pre.length + 1) = closed pre ++ cast a ++ closed post := by
  unfold eraseElm
  rw [if_neg (by omega), hB, findElm_conn (pre.length + 1) 0 pre a e post 0 (by omega)]
  dsimp only [Option.getD_some]
  rw [Nat.zero_add]
  have hs : closed (pre ++ [a, e] ++ post) = (closed pre ++ cast a) ++ ((-1 :: (cast e ++ [-1])) ++ closed post) := by simp [closed]
  have hl : (closed pre ++ cast a).length = (closed pre).length + a.length := by simp [cast]
  have hl2 : ((closed pre ++ cast a) ++ (-1 :: (cast e ++ [-1]))).length = (closed pre).length + a.length + 1 + e.length + 1 := by
    simp only [List.length_append, List.length_cons, List.length_nil, cast, List.length_map]; omega
  rw [hs, List.take_left' hl]
  rw [← List.append_assoc (closed pre ++ cast a), List.drop_left' hl2]

/-- The first element of a block of mixed types is removed correctly. -/
theorem C90_remove_first (B : Block P Q) (post : List (List Nat)) (e : List Nat) (hn : B.nen = 0)
    (hB : B.mmnpc = closed (e :: post)) (he : e ≠ []) : eraseElm B 0 = closed post := by
  unfold eraseElm
  have hs : closed (e :: post) = cast e ++ (-1 :: closed post) := by simp [closed]
  cases e with
  | nil => exact absurd rfl he
  | cons k e =>
    have hc : cast (k :: e) ++ (-1 :: closed post) = (k : Int) :: (cast e ++ (-1 :: closed post)) := rfl
    rw [if_neg (by omega), hB, hs, hc, findElm_cons, if_neg (by omega), if_neg (by omega), if_pos ⟨rfl, rfl⟩, findElm_in]
    dsimp only [Option.getD_some]
    rw [List.take_zero, List.nil_append, Nat.zero_add]
    have : ((k : Int) :: (cast e ++ (-1 :: closed post))) = ((k : Int) :: (cast e ++ [-1])) ++ closed post := by simp
    rw [this, List.drop_left' (by simp [cast]; omega)]

/-- Removal of the second of three elements: two triangles become an element with six nodes. -/
example : (removeElement (⟨0, [(0 : ℤ), 1, 2, 3, 4, 5, 6], [], [0, 1, 2, -1, 1, 2, 3, 4, -1, 4, 5, 6, -1], [1, 2, 3], []⟩ : Block ℤ Unit) 2).mmnpc =
    [0, 1, 2, 4, 5, 6, -1] := by decide

/-! ## Spheres and cylinders -/

theorem range_split (n : Nat) (h : 1 ≤ n) : List.range n = List.range (n-1) ++ [n-1] := by
  obtain ⟨m, rfl⟩ : ∃ m, n = m + 1 := ⟨n-1, by omega⟩
  rw [List.range_succ, Nat.add_sub_cancel]

theorem range_ends (n : Nat) (h : 2 ≤ n) : List.range n = 0 :: (List.range' 1 (n-2) ++ [n-1]) := by
  obtain ⟨m, rfl⟩ : ∃ m, n = m + 2 := ⟨n-2, by omega⟩
  rw [List.range_eq_range', Nat.add_sub_cancel, List.range'_succ, Nat.zero_add, List.range'_concat]
  congr 2
  simp; omega

/-- The elements of a sphere: between neighbouring meridians `n` and `n+1` and rows `m` and `m+1`, all around. -/
theorem C90_sphere (nTheta nPhi : Nat) (h1 : 1 ≤ nTheta) (h2 : 2 ≤ nPhi) :
    sphereNodes nTheta nPhi = ((List.range nTheta).flatMap fun n => (List.range nPhi).flatMap fun m =>
      [sphereNode nTheta nPhi n m, sphereNode nTheta nPhi n (m+1), sphereNode nTheta nPhi (n+1) (m+1), sphereNode nTheta nPhi (n+1) m]) ∧
    (∀ n m, 1 ≤ nTheta → m ≤ nPhi → sphereNode nTheta nPhi n m < spherePoints nTheta nPhi) := by
  obtain ⟨p, rfl⟩ : ∃ p, nPhi = p + 1 := ⟨nPhi - 1, by omega⟩
  constructor
  · have hin : ∀ n, n < nTheta → ∀ m, 1 ≤ m → m < p + 1 → sphereNode nTheta (p+1) n m = 2 + n * p + (m - 1) := by
      intro n hn m hm1 hm2
      unfold sphereNode
      rw [if_neg (by omega), if_neg (by omega), Nat.mod_eq_of_lt hn]; rfl
    have hlast : ∀ m, 1 ≤ m → m < p + 1 → sphereNode nTheta (p+1) nTheta m = 2 + (m - 1) := by
      intro m hm1 hm2
      unfold sphereNode
      rw [if_neg (by omega), if_neg (by omega), Nat.mod_self]; omega
    have h0 : ∀ n, sphereNode nTheta (p+1) n 0 = 0 := fun n => by unfold sphereNode; rw [if_pos rfl]
    have hp : ∀ n, sphereNode nTheta (p+1) n (p+1) = 1 := fun n => by unfold sphereNode; rw [if_neg (by omega), if_pos rfl]
    have hrow : ∀ n, ((List.range (p+1)).flatMap fun m =>
        [sphereNode nTheta (p+1) n m, sphereNode nTheta (p+1) n (m+1), sphereNode nTheta (p+1) (n+1) (m+1), sphereNode nTheta (p+1) (n+1) m]) =
        [0, sphereNode nTheta (p+1) n 1, sphereNode nTheta (p+1) (n+1) 1, 0] ++
        ((List.range' 1 (p+1-2)).flatMap fun m =>
          [sphereNode nTheta (p+1) n m, sphereNode nTheta (p+1) n (m+1), sphereNode nTheta (p+1) (n+1) (m+1), sphereNode nTheta (p+1) (n+1) m]) ++
        [sphereNode nTheta (p+1) n p, 1, 1, sphereNode nTheta (p+1) (n+1) p] := by
      intro n
      rw [range_ends (p+1) h2, List.flatMap_cons, List.flatMap_append, h0, h0, List.append_assoc, List.flatMap_singleton,
        show p + 1 - 1 = p by omega, hp, hp]
    have hsub : ∀ n, (p+1) * n - n = n * p := by
      intro n; rw [Nat.add_mul, Nat.one_mul, Nat.add_sub_cancel, Nat.mul_comm]
    have hsub1 : ∀ n, (p+1) * (n+1) - n = (n+1) * p + 1 := by
      intro n
      have : (p+1) * (n+1) = (n+1) * p + 1 + n := by ring
      rw [this, Nat.add_sub_cancel]
    have hsub2 : ∀ n, (p+1) * (n+2) - n - 1 = (n+2) * p + 1 := by
      intro n
      have : (p+1) * (n+2) = (n+2) * p + 1 + 1 + n := by ring
      rw [this, Nat.add_sub_cancel, Nat.add_sub_cancel]
    unfold sphereNodes
    rw [range_split nTheta h1, List.flatMap_append, List.flatMap_singleton, List.append_assoc, List.append_assoc]
    congr 1
    · apply List.flatMap_congr
      intro n hn
      have hn := List.mem_range.1 hn
      rw [hrow, hin n (by omega) 1 (by omega) (by omega), hin (n+1) (by omega) 1 (by omega) (by omega), hin n (by omega) p (by omega) (by omega),
        hin (n+1) (by omega) p (by omega) (by omega), hsub, hsub1, hsub2]
      have e1 : (n+1) * p + 1 = 2 + n * p + (p - 1) := by rw [Nat.add_mul, Nat.one_mul]; omega
      have e2 : (n+2) * p + 1 = 2 + (n+1) * p + (p - 1) := by rw [show (n+2) * p = (n+1) * p + p by ring]; omega
      congr 1
      · congr 1
        · congr 2
          · omega
          · congr 1; omega
        · apply List.flatMap_congr
          intro m hm
          rw [List.mem_range'_1] at hm
          rw [hin n (by omega) m (by omega) (by omega), hin n (by omega) (m+1) (by omega) (by omega), hin (n+1) (by omega) (m+1) (by omega) (by omega),
            hin (n+1) (by omega) m (by omega) (by omega)]
          congr 1
          · omega
          · congr 1
            · omega
            · congr 1
              · omega
              · congr 1; omega
      · rw [e1, e2]
    · have hN : nTheta - 1 + 1 = nTheta := by omega
      rw [hrow, hN, hin (nTheta-1) (by omega) 1 (by omega) (by omega), hlast 1 (by omega) (by omega), hin (nTheta-1) (by omega) p (by omega) (by omega),
        hlast p (by omega) (by omega), show p + 1 - 1 = p by omega, Nat.mul_comm p (nTheta - 1), List.append_assoc]
      congr 1
      · congr 2; omega
      · congr 1
        · apply List.flatMap_congr
          intro m hm
          rw [List.mem_range'_1] at hm
          rw [hin (nTheta-1) (by omega) m (by omega) (by omega), hin (nTheta-1) (by omega) (m+1) (by omega) (by omega), hlast (m+1) (by omega) (by omega),
            hlast m (by omega) (by omega)]
          congr 1
          · omega
          · congr 1
            · omega
            · congr 1
              · omega
              · congr 1; omega
        · have : p * nTheta = (nTheta - 1) * p + p := by
            obtain ⟨q, rfl⟩ : ∃ q, nTheta = q + 1 := ⟨nTheta - 1, by omega⟩
            rw [Nat.add_sub_cancel]; ring
          rw [this]
          congr 1
          · omega
          · congr 3; omega
  · intro n m _ hm
    unfold sphereNode spherePoints
    have hmod := Nat.mod_lt n h1
    split
    · omega
    · split
      · omega
      · rw [show p + 1 - 1 = p by omega]
        have : (n % nTheta + 1) * p ≤ nTheta * p := Nat.mul_le_mul_right p hmod
        rw [Nat.add_mul, Nat.one_mul] at this
        have := Nat.mul_comm p nTheta
        omega

/-- The elements of a cylinder: around each end, and between the ends, all around. -/
theorem C90_cylinder (nTheta : Nat) (h1 : 1 ≤ nTheta) :
    cylinderNodes nTheta = ((List.range nTheta).flatMap fun n =>
      [0, cylinderRing nTheta false (n+1), cylinderRing nTheta false n, 0,
       cylinderRing nTheta false (n+1), cylinderRing nTheta false n, cylinderRing nTheta true n, cylinderRing nTheta true (n+1),
       nTheta + 1, cylinderRing nTheta true n, cylinderRing nTheta true (n+1), nTheta + 1]) ∧
    (∀ b n, cylinderRing nTheta b n < cylinderPoints nTheta) := by
  constructor
  · unfold cylinderNodes
    rw [range_split nTheta h1, List.flatMap_append, List.flatMap_singleton, List.append_assoc, List.append_assoc]
    congr 1
    · apply List.flatMap_congr
      intro n hn
      have hn := List.mem_range.1 hn
      unfold cylinderRing
      have hm : (n+1) % nTheta = n + 1 := Nat.mod_eq_of_lt (by omega)
      rw [hm, Nat.mod_eq_of_lt (show n < nTheta by omega)]
      simp only [if_true, Bool.false_eq_true, if_false, List.cons_append, List.nil_append, List.cons.injEq, and_true, true_and]
      omega
    · unfold cylinderRing
      have hm : (nTheta - 1 + 1) % nTheta = 0 := by rw [show nTheta - 1 + 1 = nTheta by omega, Nat.mod_self]
      rw [hm, Nat.mod_eq_of_lt (show nTheta - 1 < nTheta by omega)]
      simp only [if_true, Bool.false_eq_true, if_false, List.cons_append, List.nil_append, List.cons.injEq, and_true, true_and]
      omega
  · intro b n
    unfold cylinderRing cylinderPoints
    have := Nat.mod_lt n h1
    cases b <;> simp <;> omega

end IFEM.VBlk
