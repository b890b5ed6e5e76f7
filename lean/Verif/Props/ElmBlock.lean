import Verif.Spec.ElmBlock
import Mathlib.Tactic.Ring
/-!
# C90: A block of visualization elements draws the elements put into it
-/
namespace IFEM.VBlk
open IFEM.Spec

variable {P Q : Type}

/-- The nodes of an element as stored. -/
def cast (e : List Nat) : List Int := e.map fun k : Nat => (k : Int)

theorem conn_eq {B : Block P Q} {els : List (List Nat)} {ids : List Int} (h : Stores B els ids) :
    (B.nen > 0 → B.mmnpc = els.flatMap cast ∧ ∀ e ∈ els, e.length = B.nen) ∧
    (B.nen = 0 → B.mmnpc = els.flatMap fun e => cast e ++ [-1]) := by
  constructor
  · intro c; have := h.conn; rw [if_pos c] at this; exact this
  · intro c; have := h.conn; rw [if_neg (by omega)] at this; exact this

/-! ## Elements of one type -/

theorem elementsOf_cons (n : Nat) (x : Int) (xs cur : List Int) : elementsOf n (x :: xs) cur =
    if x < 0 then (if cur.length = n then cur else []) ++ elementsOf n xs [] else elementsOf n xs (cur ++ [x]) := rfl

theorem centerNodes_cons (i : Nat) (x : Int) (xs : List Int) (elm : Nat) : centerNodes i (x :: xs) elm =
    if x < 0 then (if elm + 1 = i then [] else centerNodes i xs (elm+1))
    else if elm + 1 = i then x :: centerNodes i xs elm else centerNodes i xs elm := rfl

theorem elementsOf_nodes (n : Nat) (e : List Nat) (xs cur : List Int) : elementsOf n (cast e ++ xs) cur = elementsOf n xs (cur ++ cast e) := by
  induction e generalizing cur with
  | nil => simp [cast]
  | cons k e ih =>
    show elementsOf n ((k : Int) :: (cast e ++ xs)) cur = _
    rw [elementsOf_cons, if_neg (by omega), ih]
    congr 1
    simp [cast]

theorem elementsOf_conn (n : Nat) (els : List (List Nat)) :
    elementsOf n (els.flatMap fun e => cast e ++ [-1]) [] = (els.filter fun e => e.length = n).flatMap cast := by
  induction els with
  | nil => rfl
  | cons e els ih =>
    rw [List.flatMap_cons, List.append_assoc, elementsOf_nodes, List.nil_append]
    show elementsOf n (-1 :: (els.flatMap fun e => cast e ++ [-1])) _ = _
    rw [elementsOf_cons, if_pos (by decide), ih]
    have hl : (cast e).length = e.length := by simp [cast]
    rw [hl]
    by_cases c : e.length = n
    · rw [if_pos c, List.filter_cons_of_pos (by simpa using c), List.flatMap_cons]
    · rw [if_neg c, List.filter_cons_of_neg (by simpa using c), List.nil_append]

/-- The connectivity given for a number of nodes is that of the elements with this number of nodes, in their order; it is refused if there are no
such nodes, or if all elements have another number. -/
theorem C90_elements {B : Block P Q} {els : List (List Nat)} {ids : List Int} (h : Stores B els ids) (n : Nat) :
    (getElements B n).1 = ((els.filter fun e => e.length = n).flatMap cast) ∧
      ((getElements B n).2 = true ↔ if B.nen > 0 then B.nen = n else ∃ e ∈ els, e.length = n ∧ e ≠ []) := by
  obtain ⟨h1, h2⟩ := conn_eq h
  unfold getElements
  by_cases c : B.nen > 0
  · obtain ⟨e1, e2⟩ := h1 c
    rw [if_pos c, if_pos c]
    by_cases d : B.nen = n
    · rw [if_neg (by simpa using d)]
      refine ⟨?_, by simp [d]⟩
      rw [e1, List.filter_eq_self.2]
      intro e he
      simp [e2 e he, d]
    · rw [if_pos d]
      refine ⟨?_, by simp [d]⟩
      rw [List.filter_eq_nil_iff.2]
      · rfl
      · intro e he
        simp [e2 e he, d]
  · rw [if_neg c, if_neg c]
    dsimp only
    rw [h2 (by omega), elementsOf_conn]
    refine ⟨rfl, ?_⟩
    rw [Bool.not_eq_true', List.isEmpty_eq_false_iff, Ne, List.flatMap_eq_nil_iff]
    push Not
    constructor
    · rintro ⟨e, he, hn⟩
      obtain ⟨a, b⟩ := List.mem_filter.1 he
      exact ⟨e, a, by simpa using b, fun x => hn (by rw [x]; rfl)⟩
    · rintro ⟨e, he, hl, hn⟩
      exact ⟨e, List.mem_filter.2 ⟨he, by simpa using hl⟩, fun x => hn (by simpa [cast] using x)⟩

/-! ## Centres -/

theorem centerNodes_skip (i : Nat) (e : List Nat) (xs : List Int) (elm : Nat) :
    centerNodes i (cast e ++ xs) elm = (if elm + 1 = i then cast e else []) ++ centerNodes i xs elm := by
  induction e with
  | nil => simp [cast]
  | cons k e ih =>
    show centerNodes i ((k : Int) :: (cast e ++ xs)) elm = _
    rw [centerNodes_cons, if_neg (by omega)]
    by_cases c : elm + 1 = i
    · rw [if_pos c, ih, if_pos c, if_pos c]; rfl
    · rw [if_neg c, ih, if_neg c, if_neg c]

theorem centerNodes_conn (els : List (List Nat)) (j elm : Nat) (e : List Nat) (he : els[j]? = some e) :
    centerNodes (elm + j + 1) (els.flatMap fun e => cast e ++ [-1]) elm = cast e := by
  induction els generalizing j elm with
  | nil => exact absurd he (by simp)
  | cons a els ih =>
    rw [List.flatMap_cons, List.append_assoc, centerNodes_skip]
    show _ ++ centerNodes _ (-1 :: (els.flatMap fun e => cast e ++ [-1])) elm = _
    rw [centerNodes_cons, if_pos (show (-1 : Int) < 0 by decide)]
    cases j with
    | zero =>
      obtain rfl : a = e := by simpa using he
      rw [if_pos rfl, if_pos rfl, List.append_nil]
    | succ j =>
      rw [if_neg (by omega), if_neg (by omega), List.nil_append]
      have := ih j (elm+1) (by simpa using he)
      rw [show elm + (j+1) + 1 = elm + 1 + j + 1 by omega]
      exact this

theorem uniform_slice (n : Nat) (els : List (List Nat)) (hl : ∀ e ∈ els, e.length = n) (j : Nat) (e : List Nat) (he : els[j]? = some e) :
    ((els.flatMap cast).drop (n * j)).take n = cast e ∧
      (els.flatMap cast).take (n * j) = (els.take j).flatMap cast ∧ (els.flatMap cast).drop (n * j + n) = (els.drop (j+1)).flatMap cast := by
  induction els generalizing j with
  | nil => exact absurd he (by simp)
  | cons a els ih =>
    have ha : (cast a).length = n := by simpa [cast] using hl a List.mem_cons_self
    rw [List.flatMap_cons]
    cases j with
    | zero =>
      obtain rfl : a = e := by simpa using he
      refine ⟨?_, by simp, ?_⟩
      · rw [Nat.mul_zero, List.drop_zero, List.take_left' ha]
      · rw [Nat.mul_zero, Nat.zero_add, List.drop_left' ha]; rfl
    | succ j =>
      obtain ⟨k1, k2, k3⟩ := ih (fun x hx => hl x (List.mem_cons_of_mem _ hx)) j (by simpa using he)
      have hm : n * (j+1) = n + n * j := by ring
      refine ⟨?_, ?_, ?_⟩
      · rw [hm, ← List.drop_drop, List.drop_left' ha, k1]
      · rw [hm, List.take_append, ha, List.take_of_length_le (by omega), Nat.add_sub_cancel_left, k2]; rfl
      · rw [hm, Nat.add_assoc, ← List.drop_drop, List.drop_left' ha, k3]; rfl

theorem coords_spec {K : Type} (coord : List K) (e : List Nat) (h : ∀ k ∈ e, k < coord.length) (z : K) :
    ((cast e).mapM fun x => if x < 0 then none else coord[x.toNat]?) = some (e.map fun k => coord.getD k z) := by
  induction e with
  | nil => rfl
  | cons k e ih =>
    show List.mapM _ ((k : Int) :: cast e) = _
    rw [List.mapM_cons, ih fun x hx => h x (List.mem_cons_of_mem _ hx), if_neg (by omega), Int.toNat_natCast,
      List.getElem?_eq_getElem (h k List.mem_cons_self)]
    simp [List.getD_eq_getElem?_getD, List.getElem?_eq_getElem (h k List.mem_cons_self)]

/-- The centre of an existing element is the mean of its corner points. -/
theorem C90_center {K : Type} [Field K] {B : Block K Q} {els : List (List Nat)} {ids : List Int} (h : Stores B els ids) (j : Nat) :
    (∀ e, els[j]? = some e → getCenter B (j+1) = some (some ((e.map fun k => B.coord.getD k 0).sum / (e.length : K)))) ∧
      (els.length ≤ j → getCenter B (j+1) = none) ∧ getCenter B 0 = none := by
  obtain ⟨h1, h2⟩ := conn_eq h
  refine ⟨fun e he => ?_, fun hj => ?_, by unfold getCenter; rw [if_pos (by omega)]⟩
  · have hj : j < els.length := (List.getElem?_eq_some_iff.1 he).1
    have hc := h.count
    have hn := h.names
    have hk := coords_spec B.coord e (h.nodes e (List.mem_of_getElem? he)) 0
    unfold getCenter
    rw [if_neg (by rw [hn]; omega)]
    dsimp only
    by_cases c : B.nen > 0
    · obtain ⟨e1, e2⟩ := h1 c
      rw [if_pos c, if_pos c, show B.nen * (j+1) - B.nen = B.nen * j by rw [Nat.mul_add, Nat.mul_one]; omega, e1,
        (uniform_slice B.nen els e2 j e he).1]
      have hl := e2 e (List.mem_of_getElem? he)
      rw [if_neg (by simp [cast, hl]), hk, ← hl]
      rfl
    · rw [if_neg c, if_neg c, if_neg (fun x => c x.1), h2 (by omega)]
      have := centerNodes_conn els j 0 e he
      rw [Nat.zero_add] at this
      rw [this, hk]
      simp [cast]
  · unfold getCenter
    rw [if_pos (by rw [h.names, h.count]; omega)]

end IFEM.VBlk
