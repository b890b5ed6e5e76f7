import Verif.Props.ElmBlock
/-!
# C90: Filling of a block of visualization elements
-/
namespace IFEM.VBlk
open IFEM.Spec

variable {P Q : Type}

/-- The calls of `setNode` for the nodes of an element (`ip` is incremented by the caller), and of `endOfElm`; the flag tells whether all calls
succeeded. -/
def putElm (s : Block P Q × Nat × Bool) (e : List Nat) : Block P Q × Nat × Bool :=
  let r := e.foldl (fun (s : Block P Q × Nat × Bool) (k : Nat) => ((setNode s.1 s.2.1 (k : Int)).1, s.2.1 + 1, s.2.2 && (setNode s.1 s.2.1 (k : Int)).2)) s
  let q := endOfElm r.1 r.2.1
  (q.1, q.2.1, r.2.2 && q.2.2)

theorem putNodes_spec (e : List Nat) (B : Block P Q) (ip : Nat) (h : ip + e.length ≤ B.mmnpc.length) :
    e.foldl (fun (s : Block P Q × Nat × Bool) (k : Nat) => ((setNode s.1 s.2.1 (k : Int)).1, s.2.1 + 1, s.2.2 && (setNode s.1 s.2.1 (k : Int)).2)) (B, ip, true) =
      ({ B with mmnpc := B.mmnpc.take ip ++ cast e ++ B.mmnpc.drop (ip + e.length) }, ip + e.length, true) := by
  induction e generalizing B ip with
  | nil => simp [cast]
  | cons k e ih =>
    rw [List.length_cons] at h
    have hs : setNode B ip (k : Int) = ({ B with mmnpc := B.mmnpc.set ip k }, true) := by
      unfold setNode; rw [if_neg (by omega)]
    rw [List.foldl_cons]
    dsimp only
    rw [hs]
    rw [Bool.true_and]
    rw [ih _ (ip+1) (by dsimp only; rw [List.length_set]; omega)]
    have e1 : (B.mmnpc.set ip (k : Int)).take (ip+1) = B.mmnpc.take ip ++ [(k : Int)] := by
      rw [List.take_add_one, List.getElem?_set, if_pos rfl, if_pos (by omega)]
      rw [List.take_set, List.set_eq_of_length_le (by rw [List.length_take]; omega)]
      rfl
    have e2 : (B.mmnpc.set ip (k : Int)).drop (ip + 1 + e.length) = B.mmnpc.drop (ip + (k :: e).length) := by
      rw [List.drop_set_of_lt (by omega), List.length_cons]
      congr 1; omega
    rw [e1, e2, List.length_cons]
    have e3 : ip + 1 + e.length = ip + (e.length + 1) := by omega
    rw [e3]
    simp [cast]

/-- The length of the connectivity of the elements. -/
def connLen (nen : Nat) (els : List (List Nat)) : Nat := (els.map fun e => if nen > 0 then e.length else e.length + 1).sum

/-- The connectivity of the elements. -/
def connOf (nen : Nat) (els : List (List Nat)) : List Int := els.flatMap fun e => if nen > 0 then cast e else cast e ++ [-1]

theorem connOf_length (nen : Nat) (els : List (List Nat)) : (connOf nen els).length = connLen nen els := by
  unfold connOf connLen
  rw [List.length_flatMap]
  congr 1
  apply List.map_congr_left
  intro e _
  by_cases c : nen > 0
  · rw [if_pos c, if_pos c]; simp [cast]
  · rw [if_neg c, if_neg c]; simp [cast]

theorem putElm_spec (B : Block P Q) (ip : Nat) (e : List Nat) (h : ip + (if B.nen > 0 then e.length else e.length + 1) ≤ B.mmnpc.length) :
    ∃ B', putElm (B, ip, true) e = (B', ip + (if B.nen > 0 then e.length else e.length + 1), true) ∧
      B'.mmnpc = B.mmnpc.take ip ++ (if B.nen > 0 then cast e else cast e ++ [-1]) ++ B.mmnpc.drop (ip + (if B.nen > 0 then e.length else e.length + 1)) ∧
      B'.nen = B.nen ∧ B'.coord = B.coord ∧ B'.param = B.param ∧ B'.minex = B.minex := by
  unfold putElm
  rw [putNodes_spec e B ip (by split at h <;> omega)]
  dsimp only
  by_cases c : B.nen > 0
  · simp only [if_pos c] at h ⊢
    unfold endOfElm
    dsimp only
    rw [if_neg (by omega)]
    exact ⟨_, rfl, rfl, rfl, rfl, rfl, rfl⟩
  · simp only [if_neg c] at h ⊢
    have hl : (B.mmnpc.take ip ++ cast e ++ B.mmnpc.drop (ip + e.length)).length = B.mmnpc.length := by
      simp only [List.length_append, List.length_take, List.length_drop, cast, List.length_map]; omega
    have hset : (B.mmnpc.take ip ++ cast e ++ B.mmnpc.drop (ip + e.length)).set (ip + e.length) (-1) =
        B.mmnpc.take ip ++ (cast e ++ [-1]) ++ B.mmnpc.drop (ip + (e.length + 1)) := by
      have hd : B.mmnpc.drop (ip + e.length) = B.mmnpc[ip + e.length]'(by omega) :: B.mmnpc.drop (ip + e.length + 1) :=
        List.drop_eq_getElem_cons (by omega)
      have hl2 : (B.mmnpc.take ip ++ cast e).length = ip + e.length := by
        simp only [List.length_append, List.length_take, cast, List.length_map]; omega
      rw [hd, List.set_append_right _ _ (by omega), hl2, Nat.sub_self, List.set_cons_zero]
      rw [show ip + (e.length + 1) = ip + e.length + 1 by omega]
      simp
    unfold endOfElm
    dsimp only
    rw [if_pos (by omega), hl, if_neg (by omega), hset]
    split
    · exact ⟨_, rfl, rfl, rfl, rfl, rfl, rfl⟩
    · exact ⟨_, rfl, rfl, rfl, rfl, rfl, rfl⟩

theorem putAll_spec (els : List (List Nat)) (B : Block P Q) (ip : Nat) (h : ip + connLen B.nen els ≤ B.mmnpc.length) :
    ∃ B', els.foldl putElm (B, ip, true) = (B', ip + connLen B.nen els, true) ∧
      B'.mmnpc = B.mmnpc.take ip ++ connOf B.nen els ++ B.mmnpc.drop (ip + connLen B.nen els) ∧
      B'.nen = B.nen ∧ B'.coord = B.coord ∧ B'.param = B.param ∧ B'.minex = B.minex := by
  induction els generalizing B ip with
  | nil => exact ⟨B, rfl, by simp [connOf, connLen], rfl, rfl, rfl, rfl⟩
  | cons e els ih =>
    have hc : connLen B.nen (e :: els) = (if B.nen > 0 then e.length else e.length + 1) + connLen B.nen els := by simp [connLen]
    have ho : connOf B.nen (e :: els) = (if B.nen > 0 then cast e else cast e ++ [-1]) ++ connOf B.nen els := by simp [connOf]
    rw [hc] at h ⊢
    rw [ho]
    have hce : (if B.nen > 0 then cast e else cast e ++ [-1]).length = (if B.nen > 0 then e.length else e.length + 1) := by
      split <;> simp [cast]
    obtain ⟨B1, e1, m1, n1, c1, p1, x1⟩ := putElm_spec B ip e (by omega)
    generalize (if B.nen > 0 then e.length else e.length + 1) = l at *
    generalize (if B.nen > 0 then cast e else cast e ++ [-1]) = ce at *
    have hl1 : B1.mmnpc.length = B.mmnpc.length := by
      rw [m1]; simp only [List.length_append, List.length_take, List.length_drop]; omega
    obtain ⟨B2, e2, m2, n2, c2, p2, x2⟩ := ih B1 (ip + l) (by rw [n1, hl1]; omega)
    rw [n1] at e2 m2 n2
    have ht : (B.mmnpc.take ip ++ ce).length = ip + l := by
      rw [List.length_append, List.length_take]; omega
    refine ⟨B2, ?_, ?_, n2, by rw [c2, c1], by rw [p2, p1], by rw [x2, x1]⟩
    · rw [List.foldl_cons, e1, e2, Nat.add_assoc]
    · rw [m2, m1, List.take_left' ht, ← List.drop_drop, List.drop_left' ht, List.drop_drop, Nat.add_assoc]
      simp

/-- Filling a block (a new one, or one used before): after the block is sized for the elements and points, and the nodes of all elements are set one after the other, the block
stores these elements with the numbers 1, 2, ..., and all calls succeed.  All elements have `nen` nodes, or (mixed types) the size of the
connectivity is given and is not a multiple of the number of elements. -/
theorem C90_fill (p0 : P) (q0 : Q) (B0 : Block P Q) (nPts : Nat) (els : List (List Nat)) (hnodes : ∀ e ∈ els, ∀ k ∈ e, k < nPts)
    (nMNPC : Nat) (ht : (nMNPC = 0 ∧ B0.nen > 0 ∧ ∀ e ∈ els, e.length = B0.nen) ∨
      (nMNPC = (els.map List.length).sum ∧ nMNPC > 0 ∧ ¬ els.length ∣ nMNPC)) :
    ∃ B' ip, els.foldl putElm (unStructResize p0 q0 B0 els.length nPts nMNPC, 0, true) = (B', ip, true) ∧
      Stores B' els ((List.range els.length).map fun i : Nat => (i : Int) + 1) ∧ B'.coord = B0.coord.take nPts ++ List.replicate (nPts - B0.coord.length) p0 := by
  obtain ⟨hn, hm⟩ : (unStructResize p0 q0 B0 els.length nPts nMNPC).nen = (if nMNPC = 0 then B0.nen else 0) ∧
      (unStructResize p0 q0 B0 els.length nPts nMNPC).mmnpc.length = connLen (if nMNPC = 0 then B0.nen else 0) els := by
    rcases ht with ⟨h1, h2, h3⟩ | ⟨h1, h2, h3⟩
    · subst h1
      refine ⟨by simp [unStructResize], ?_⟩
      have hs : (els.map fun e => e.length).sum = B0.nen * els.length := by
        clear hnodes
        induction els with
        | nil => rfl
        | cons e els ih =>
          rw [List.map_cons, List.sum_cons, ih (fun x hx => h3 x (List.mem_cons_of_mem _ hx)), h3 e List.mem_cons_self, List.length_cons]
          ring
      simp [unStructResize, connLen, h2, hs]
      omega
    · have hd : nMNPC / els.length * els.length ≠ nMNPC := fun h => h3 (Dvd.intro_left _ h)
      have h0 : nMNPC ≠ 0 := by omega
      have hs : (els.map fun e => e.length + 1).sum = (els.map List.length).sum + els.length := by
        clear hnodes h1 h3 hd
        induction els with
        | nil => rfl
        | cons e els ih => rw [List.map_cons, List.sum_cons, List.map_cons, List.sum_cons, List.length_cons, ih]; omega
      refine ⟨by simp [unStructResize, h2, h0, hd], ?_⟩
      simp [unStructResize, connLen, h2, h0, hd, hs]
      omega
  have hcoord : (unStructResize p0 q0 B0 els.length nPts nMNPC).coord =
      B0.coord.take nPts ++ List.replicate (nPts - B0.coord.length) p0 := by
    simp [unStructResize]
  have hminex : (unStructResize p0 q0 B0 els.length nPts nMNPC).minex =
    (List.range els.length).map fun i : Nat => (i : Int) + 1 := rfl
  generalize unStructResize p0 q0 B0 els.length nPts nMNPC = B at *
  obtain ⟨B', e1, m1, n1, c1, p1, x1⟩ := putAll_spec els B 0 (by rw [hn, hm]; omega)
  refine ⟨B', _, e1, ⟨by rw [x1, hminex], by simp, ?_, ?_⟩, by rw [c1, hcoord]⟩
  · rw [c1, hcoord, List.length_append, List.length_take, List.length_replicate]
    intro e he k hk
    have := hnodes e he k hk
    omega
  · rw [m1, n1, hn]
    have hd : B.mmnpc.drop (0 + connLen (if nMNPC = 0 then B0.nen else 0) els) = [] := List.drop_eq_nil_of_le (by omega)
    rw [hd, List.take_zero, List.nil_append, List.append_nil]
    rcases ht with ⟨h1, h2, h3⟩ | ⟨h1, h2, h3⟩
    · simp only [h1, if_true, h2]
      refine ⟨?_, h3⟩
      unfold connOf
      simp only [h2, if_true]
      rfl
    · have h0 : nMNPC ≠ 0 := by omega
      simp only [h0, if_false, connOf]
      rfl

/-- A triangle and a quadrilateral. -/
example : (([[0, 1, 2], [0, 2, 3, 4]] : List (List Nat)).foldl putElm
    (unStructResize (0 : ℤ) () (⟨8, [], [], [], [], []⟩ : Block ℤ Unit) 2 5 7, 0, true)).1.mmnpc = [0, 1, 2, -1, 0, 2, 3, 4, -1] := by decide

/-- Finding F182: a line and a quadrilateral are taken for two triangles, since the number of entries is a multiple of the number of elements. -/
example : (([[0, 1], [0, 1, 2, 3]] : List (List Nat)).foldl putElm
    (unStructResize (0 : ℤ) () (⟨8, [], [], [], [], []⟩ : Block ℤ Unit) 2 4 6, 0, true)).1.nen = 3 ∧
    getElements (([[0, 1], [0, 1, 2, 3]] : List (List Nat)).foldl putElm
      (unStructResize (0 : ℤ) () (⟨8, [], [], [], [], []⟩ : Block ℤ Unit) 2 4 6, 0, true)).1 3 = ([0, 1, 0, 1, 2, 3], true) := by decide

end IFEM.VBlk
