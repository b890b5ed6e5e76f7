import Verif.Model.Utilities
import Mathlib.Tactic.Ring
import Mathlib.Tactic.Linarith
import Mathlib.Algebra.Order.Group.Unbundled.Abs
import Mathlib.Data.Rat.Defs
/-!
# C48: array utilities
-/
namespace IFEM.Props

/-! ## Closest value -/

section closest
variable {K : Type} [Field K] [LinearOrder K] [IsStrictOrderedRing K]

theorem takeWhile_lt (a : List K) (v : K) (j : Nat) (h : j < (a.takeWhile fun x => decide (x < v)).length) :
    ∃ x, a[j]? = some x ∧ x < v := by
  have hm := List.all_eq_true.mp (List.all_takeWhile (p := fun x => decide (x < v)) (l := a)) _ (List.getElem_mem h)
  have hp := List.takeWhile_prefix (l := a) (fun x => decide (x < v))
  refine ⟨_, ?_, by simpa using hm⟩
  have := hp.getElem (i := j) h
  rw [this]
  exact List.getElem?_eq_getElem _

theorem takeWhile_ge (a : List K) (v : K) (hs : a.Pairwise (· ≤ ·)) (j : Nat) (x : K)
    (h : (a.takeWhile fun x => decide (x < v)).length ≤ j) (hx : a[j]? = some x) : v ≤ x := by
  have hd : x ∈ a.dropWhile fun x => decide (x < v) := by
    have e := List.takeWhile_append_dropWhile (p := fun x => decide (x < v)) (l := a)
    rw [← e, List.getElem?_append_right h] at hx
    exact List.mem_of_getElem? hx
  have hds : (a.dropWhile fun x => decide (x < v)).Pairwise (· ≤ ·) := hs.sublist (List.dropWhile_sublist _)
  cases hdw : a.dropWhile fun x => decide (x < v) with
  | nil => rw [hdw] at hd; simp at hd
  | cons y ys =>
    have hy : ¬ y < v := by
      have := List.head_dropWhile_not (fun x => decide (x < v)) (l := a) (by rw [hdw]; simp)
      simpa [hdw] using this
    rw [hdw] at hd hds
    rcases List.mem_cons.mp hd with rfl | hm
    · exact not_lt.mp hy
    · exact le_trans (not_lt.mp hy) ((List.pairwise_cons.mp hds).1 x hm)

/-- **C48** (closest value). In a sorted non-empty array, the returned index is that of a value with smallest distance. -/
theorem C48_find_closest (a : List K) (v : K) (hs : a.Pairwise (· ≤ ·)) (hne : a ≠ []) :
    ∃ x, a[findClosest a v]? = some x ∧ ∀ y ∈ a, |x - v| ≤ |y - v| := by
  have hpos : 0 < a.length := List.length_pos_iff.mpr hne
  have hlt := takeWhile_lt a v
  have hge := takeWhile_ge a v hs
  have hmono : ∀ (i j : Nat) (x y : K), i ≤ j → a[i]? = some x → a[j]? = some y → x ≤ y := by
    intro i j x y hij hx hy
    rcases Nat.lt_or_eq_of_le hij with h | h
    · obtain ⟨hi, rfl⟩ := List.getElem?_eq_some_iff.mp hx
      obtain ⟨hj, rfl⟩ := List.getElem?_eq_some_iff.mp hy
      exact List.pairwise_iff_getElem.mp hs i j hi hj h
    · subst h; rw [hx] at hy; simp only [Option.some.injEq] at hy; exact le_of_eq hy
  have hle : (a.takeWhile fun x => decide (x < v)).length ≤ a.length := (List.takeWhile_sublist _).length_le
  unfold findClosest
  dsimp only
  generalize (a.takeWhile fun x => decide (x < v)).length = i at hlt hge hle
  by_cases h1 : 0 < i ∧ i < a.length
  · rw [if_pos h1]
    have e1 : a[i]? = some a[i] := List.getElem?_eq_getElem h1.2
    have e2 : a[i-1]? = some (a[i-1]'(by omega)) := List.getElem?_eq_getElem (by omega)
    generalize hx : a[i] = x at e1
    generalize hy : a[i-1]'(by omega) = y at e2
    rw [e1, e2]
    dsimp only
    have hxv : v ≤ x := hge i x le_rfl e1
    have hyv : y < v := by
      obtain ⟨y', h, hl⟩ := hlt (i-1) (by omega)
      rw [e2] at h; simp only [Option.some.injEq] at h; rw [h]; exact hl
    -- the distance of any value is at least that to the closest one on its side
    have hall : ∀ z ∈ a, (x - v ≤ |z - v|) ∨ (v - y ≤ |z - v|) := by
      intro z hz
      obtain ⟨j, hj⟩ := List.mem_iff_getElem?.mp hz
      by_cases hji : j < i
      · have := hmono j (i-1) z y (by omega) hj e2
        right
        rw [abs_sub_comm]
        exact le_trans (by linarith) (le_abs_self _)
      · have := hmono i j x z (by omega) e1 hj
        left
        exact le_trans (by linarith) (le_abs_self _)
    by_cases h2 : x - v < v - y
    · rw [if_pos h2]
      refine ⟨x, e1, fun z hz => ?_⟩
      rw [abs_of_nonneg (by linarith)]
      rcases hall z hz with h | h <;> linarith
    · rw [if_neg h2]
      refine ⟨y, e2, fun z hz => ?_⟩
      rw [abs_sub_comm, abs_of_nonneg (by linarith)]
      rcases hall z hz with h | h <;> linarith
  · rw [if_neg h1]
    by_cases h0 : i = 0
    · rw [if_pos h0]
      subst h0
      refine ⟨a[0], List.getElem?_eq_getElem hpos, fun z hz => ?_⟩
      obtain ⟨j, hj⟩ := List.mem_iff_getElem?.mp hz
      have e1 : a[0]? = some a[0] := List.getElem?_eq_getElem hpos
      have h2 := hge 0 _ le_rfl e1
      have h3 := hmono 0 j _ z (by omega) e1 hj
      rw [abs_of_nonneg (by linarith), abs_of_nonneg (by linarith)]
      linarith
    · rw [if_neg h0]
      have hi : i = a.length := by omega
      have e1 : a[i-1]? = some (a[i-1]'(by omega)) := List.getElem?_eq_getElem (by omega)
      refine ⟨_, e1, fun z hz => ?_⟩
      obtain ⟨j, hj⟩ := List.mem_iff_getElem?.mp hz
      have hjl : j < a.length := (List.getElem?_eq_some_iff.mp hj).1
      obtain ⟨y', h, hl⟩ := hlt (i-1) (by omega)
      have h3 := hmono j (i-1) z _ (by omega) hj e1
      rw [e1] at h; simp only [Option.some.injEq] at h
      rw [h] at h3 ⊢
      rw [abs_sub_comm, abs_of_nonneg (by linarith), abs_sub_comm, abs_of_nonneg (by linarith)]
      linarith

/-- Non-trivial case. -/
example : ([0, 1, 1, 3] : List ℚ).Pairwise (· ≤ ·) ∧ findClosest ([0, 1, 1, 3] : List ℚ) (12/5) = 3 := by decide +kernel

end closest

/-! ## Merging -/

theorem mergeInt_spec (a1 a2 : List Int) (hn : a2.Nodup) :
    mergeInt a1 a2 = a1 ++ a2.filter (fun x => !a1.contains x) := by
  induction a2 generalizing a1 with
  | nil => simp [mergeInt]
  | cons x xs ih =>
    obtain ⟨hx, hn'⟩ := List.nodup_cons.mp hn
    unfold mergeInt at ih ⊢
    rw [List.foldl_cons]
    by_cases h : a1.contains x = true
    · rw [if_pos h, ih _ hn', List.filter_cons_of_neg (by rw [h]; simp)]
    · rw [if_neg h, ih _ hn', List.filter_cons_of_pos (by simpa using h), List.append_assoc]
      congr 1
      rw [List.singleton_append]
      congr 1
      apply List.filter_congr
      intro y hy
      have : y ≠ x := fun e => hx (e ▸ hy)
      simp [this]

/-- **C48** (merging). All numbers of both lists and no others are present; the numbers of the first list come first and are unchanged, and every number
added is new and present once. -/
theorem C48_merge (a1 a2 : List Int) :
    (∀ x, x ∈ mergeInt a1 a2 ↔ x ∈ a1 ∨ x ∈ a2) ∧ ∃ new, mergeInt a1 a2 = a1 ++ new ∧ new.Nodup ∧ ∀ x ∈ new, x ∉ a1 := by
  induction a2 generalizing a1 with
  | nil => exact ⟨by simp [mergeInt], [], by simp [mergeInt]⟩
  | cons x xs ih =>
    unfold mergeInt at ih ⊢
    rw [List.foldl_cons]
    by_cases h : x ∈ a1
    · rw [if_pos (by simpa using h)]
      refine ⟨fun y => ?_, (ih a1).2⟩
      rw [(ih a1).1 y, List.mem_cons]
      constructor
      · rintro (h | h) <;> simp [h]
      · rintro (h | rfl | h)
        · exact Or.inl h
        · exact Or.inl ‹_›
        · exact Or.inr h
    · rw [if_neg (by simpa using h)]
      obtain ⟨i1, new, e, hn, hd⟩ := ih (a1 ++ [x])
      refine ⟨fun y => ?_, x :: new, ?_, ?_, ?_⟩
      · rw [i1 y]; simp [or_assoc]
      · rw [e]; simp
      · refine List.nodup_cons.mpr ⟨fun hx => ?_, hn⟩
        exact hd x hx (by simp)
      · intro y hy
        rcases List.mem_cons.mp hy with rfl | hy
        · exact h
        · intro hy1; exact hd y hy (by simp [hy1])

/-- **C48** (merging of values). With one value for each key, the values added are those of the new keys, in the same order as the keys added
(if the keys to add are distinct). -/
theorem C48_merge_values {R : Type} (k1 k2 : List Int) (a1 a2 : List R) (hn : k2.Nodup) (h1 : a1.length = k1.length) (h2 : a2.length = k2.length) :
    ∃ a, mergeVal k1 a1 a2 k2 = some a ∧ a.zip (mergeInt k1 k2) = a1.zip k1 ++ (a2.zip k2).filter (fun p => !k1.contains p.2) := by
  rw [mergeInt_spec k1 k2 hn]
  suffices ∀ (k2 : List Int) (a1 a2 : List R), a2.length = k2.length →
      mergeVal k1 a1 a2 k2 = some (a1 ++ ((a2.zip k2).filter (fun p => !k1.contains p.2)).map Prod.fst) by
    refine ⟨_, this k2 a1 a2 h2, ?_⟩
    rw [List.zip_append h1]
    congr 1
    have e : ∀ (a2 : List R) (k2 : List Int), a2.length = k2.length → k2.filter (fun x => !k1.contains x) = ((a2.zip k2).filter (fun p => !k1.contains p.2)).map Prod.snd := by
      intro a2
      induction a2 with
      | nil => intro k2 h; cases k2 with
        | nil => rfl
        | cons k ks => simp at h
      | cons x xs ih =>
        intro k2 h
        cases k2 with
        | nil => simp at h
        | cons k ks =>
          simp only [List.length_cons, Nat.add_right_cancel_iff] at h
          by_cases hk : k1.contains k = true
          · rw [List.zip_cons_cons, List.filter_cons_of_neg (by rw [hk]; simp), List.filter_cons_of_neg (by rw [hk]; simp), ih ks h]
          · rw [List.zip_cons_cons, List.filter_cons_of_pos (by simpa using hk), List.filter_cons_of_pos (by simpa using hk), ih ks h, List.map_cons]
    rw [e a2 k2 h2, List.zip_map', List.map_id']
  intro k2
  induction k2 with
  | nil => intro a1 a2 h; simp [mergeVal]
  | cons k ks ih =>
    intro a1 a2 h
    cases a2 with
    | nil => simp at h
    | cons x xs =>
      simp only [List.length_cons, Nat.add_right_cancel_iff] at h
      rw [mergeVal]
      by_cases hk : k1.contains k = true
      · rw [if_pos hk, List.drop_one, List.tail_cons, ih _ _ h, List.zip_cons_cons, List.filter_cons_of_neg (by rw [hk]; simp)]
      · rw [if_neg hk]
        rw [ih _ _ h, List.zip_cons_cons, List.filter_cons_of_pos (by simpa using hk)]
        simp

example : mergeInt [3, 1] [1, 5, 3, 4] = [3, 1, 5, 4] ∧ mergeVal [3, 1] ["c", "a"] ["a", "e", "c", "d"] [1, 5, 3, 4] = some ["c", "a", "e", "d"] := by decide

/-! ## Interleaving -/

theorem interleaveLoop_spec {R : Type} (n1 n2 : Nat) (h0 : 0 < n1 + n2) (m fuel : Nat) (v1 v2 : List R) (h1 : v1.length = m * n1) (h2 : v2.length = m * n2) (hf : m ≤ fuel) :
    ∃ r, interleaveLoop n1 n2 fuel (m * (n1 + n2)) v1 v2 = some r ∧ r.length = m * (n1 + n2) ∧
      (∀ k c, k < m → c < n1 → r[k*(n1+n2) + c]? = v1[k*n1 + c]?) ∧
      (∀ k c, k < m → c < n2 → r[k*(n1+n2) + n1 + c]? = v2[k*n2 + c]?) := by
  induction m generalizing fuel v1 v2 with
  | zero => exact ⟨[], by simp [interleaveLoop], by simp, by intro k c hk; omega, by intro k c hk; omega⟩
  | succ m ih =>
    obtain ⟨fuel, rfl⟩ : ∃ f, fuel = f + 1 := ⟨fuel - 1, by omega⟩
    have e1 : (m+1)*n1 = m*n1 + n1 := by ring
    have e2 : (m+1)*n2 = m*n2 + n2 := by ring
    have e3 : (m+1)*(n1+n2) = m*(n1+n2) + (n1+n2) := by ring
    obtain ⟨r, hr, hl, hA, hB⟩ := ih fuel (v1.drop n1) (v2.drop n2) (by rw [List.length_drop]; omega) (by rw [List.length_drop]; omega) (by omega)
    obtain ⟨q, hq⟩ : ∃ q, m*(n1+n2) + (n1+n2) = q + 1 := ⟨m*(n1+n2) + (n1+n2) - 1, by omega⟩
    have l1 : (v1.take n1).length = n1 := by rw [List.length_take]; omega
    have l2 : (v2.take n2).length = n2 := by rw [List.length_take]; omega
    refine ⟨v1.take n1 ++ v2.take n2 ++ r, ?_, ?_, ?_, ?_⟩
    · rw [e3, hq, interleaveLoop, if_pos ⟨by omega, by omega, by omega⟩, show q + 1 - (n1+n2) = m*(n1+n2) by omega, hr]
      rfl
    · rw [List.length_append, List.length_append, l1, l2, hl]; omega
    · intro k c hk hc
      cases k with
      | zero =>
        rw [List.append_assoc, List.getElem?_append_left (by rw [l1]; omega), List.getElem?_take_of_lt (by omega)]
        simp
      | succ k =>
        have g : (k+1)*(n1+n2) = k*(n1+n2) + (n1+n2) := by ring
        have g1 : (k+1)*n1 = k*n1 + n1 := by ring
        have g2 : (v1.take n1 ++ v2.take n2).length = n1 + n2 := by rw [List.length_append, l1, l2]
        rw [List.getElem?_append_right (by rw [g2]; omega), g2, show (k+1)*(n1+n2) + c - (n1+n2) = k*(n1+n2) + c by omega, hA k c (by omega) hc,
          List.getElem?_drop, g1]
        congr 1; omega
    · intro k c hk hc
      cases k with
      | zero =>
        rw [List.append_assoc, List.getElem?_append_right (by rw [l1]; omega), l1, List.getElem?_append_left (by rw [l2]; omega), List.getElem?_take_of_lt (by omega)]
        congr 1; omega
      | succ k =>
        have g : (k+1)*(n1+n2) = k*(n1+n2) + (n1+n2) := by ring
        have g1 : (k+1)*n2 = k*n2 + n2 := by ring
        have g2 : (v1.take n1 ++ v2.take n2).length = n1 + n2 := by rw [List.length_append, l1, l2]
        rw [List.getElem?_append_right (by rw [g2]; omega), g2, show (k+1)*(n1+n2) + n1 + c - (n1+n2) = k*(n1+n2) + n1 + c by omega, hB k c (by omega) hc,
          List.getElem?_drop, g1]
        congr 1; omega

/-- **C48** (interleaving). For `m` nodes with `n1` resp. `n2` values each, the result has for each node its `n1` values of the first followed by its `n2` values of the second
vector, and nothing outside the arrays is accessed. -/
theorem C48_interleave {R : Type} (n1 n2 m : Nat) (h0 : 0 < n1 + n2) (v1 v2 : List R) (h1 : v1.length = m * n1) (h2 : v2.length = m * n2) :
    ∃ r, interleave v1 v2 n1 n2 = some r ∧ r.length = m * (n1 + n2) ∧
      (∀ k c, k < m → c < n1 → r[k*(n1+n2) + c]? = v1[k*n1 + c]?) ∧
      (∀ k c, k < m → c < n2 → r[k*(n1+n2) + n1 + c]? = v2[k*n2 + c]?) := by
  have e : v1.length + v2.length = m * (n1 + n2) := by rw [h1, h2]; ring
  unfold interleave
  rw [e]
  exact interleaveLoop_spec n1 n2 h0 m _ v1 v2 h1 h2 (Nat.le_mul_of_pos_right m h0)

example : interleave [1, 2, 3, 4] [10, 20] 2 1 = some [1, 2, 10, 3, 4, 20] := by decide

/-! ## Gathering -/

/-- **C48** (gathering). If the input consists of whole blocks of `nr` values behind the offset, then the result has, for each index not skipped, the block with that index
if it exists and zeros otherwise; the number of nonnegative indices without block is returned, and nothing outside the input is read. -/
theorem C48_gather {R : Type} [Zero R] (index : List Int) (nr nb : Nat) (hnr : 0 < nr) (inp : List R) (off nskip : Nat) (hl : inp.length = off + nr * nb) :
    ∃ out, gather index nr inp off nskip = some (((index.take (index.length - nskip)).filter fun k => decide ((nb : Int) ≤ k)).length, out) ∧
      out.length = nr * (index.length - nskip) ∧
      ∀ i c k, i < index.length - nskip → c < nr → index[i]? = some k →
        out[nr*i + c]? = if 0 ≤ k ∧ k < nb then inp[off + nr*k.toNat + c]? else some 0 := by
  unfold gather
  suffices ∀ l : List Int, ∃ out, gatherLoop nr inp off l = some ((l.filter fun k => decide ((nb : Int) ≤ k)).length, out) ∧ out.length = nr * l.length ∧
      ∀ (i c : Nat) (k : Int), c < nr → l[i]? = some k → out[nr*i + c]? = if 0 ≤ k ∧ k < nb then inp[off + nr*k.toNat + c]? else some 0 by
    obtain ⟨out, h, hlen, hv⟩ := this (index.take (index.length - nskip))
    refine ⟨out, h, by rw [hlen, List.length_take]; congr 1; omega, fun i c k hi hc hk => hv i c k hc ?_⟩
    rw [List.getElem?_take_of_lt hi]; exact hk
  intro l
  induction l with
  | nil => exact ⟨[], rfl, rfl, by intro i c k _ h; simp at h⟩
  | cons k ks ih =>
    obtain ⟨out, h, hlen, hv⟩ := ih
    have hblock : ∀ (b : List R), b.length = nr → (∀ c, c < nr → b[c]? = if 0 ≤ k ∧ k < nb then inp[off + nr*k.toNat + c]? else some 0) →
        (b ++ out).length = nr * (k :: ks).length ∧ ∀ (i c : Nat) (k' : Int), c < nr → (k :: ks)[i]? = some k' → (b ++ out)[nr*i + c]? = if 0 ≤ k' ∧ k' < nb then inp[off + nr*k'.toNat + c]? else some 0 := by
      intro b hb hbv
      refine ⟨by rw [List.length_append, hb, hlen, List.length_cons]; ring, ?_⟩
      intro i c k' hc hk'
      cases i with
      | zero =>
        simp only [List.getElem?_cons_zero, Option.some.injEq] at hk'
        subst hk'
        rw [Nat.mul_zero, Nat.zero_add, List.getElem?_append_left (by omega)]
        exact hbv c hc
      | succ i =>
        rw [List.getElem?_cons_succ] at hk'
        have e : nr * (i+1) = nr * i + nr := by ring
        rw [List.getElem?_append_right (by omega), hb, show nr*(i+1) + c - nr = nr*i + c by omega]
        exact hv i c k' hc hk'
    rw [gatherLoop, h]
    dsimp only
    have hiff : (0 ≤ k ∧ off + nr * k.toNat < inp.length) ↔ (0 ≤ k ∧ k < nb) := by
      rw [hl]
      constructor
      · rintro ⟨a, b⟩
        have : k.toNat < nb := Nat.lt_of_mul_lt_mul_left (a := nr) (by omega)
        exact ⟨a, by omega⟩
      · rintro ⟨a, b⟩
        have : nr * k.toNat < nr * nb := Nat.mul_lt_mul_of_pos_left (by omega) hnr
        exact ⟨a, by omega⟩
    by_cases hk : 0 ≤ k ∧ k < nb
    · have h3 : off + nr * k.toNat + nr ≤ inp.length := by
        have : nr * (k.toNat + 1) ≤ nr * nb := Nat.mul_le_mul_left nr (by omega)
        rw [hl]
        rw [Nat.mul_add, Nat.mul_one] at this
        omega
      rw [if_pos (hiff.mpr hk), if_pos h3, List.filter_cons_of_neg (by simpa using hk.2)]
      refine ⟨_, rfl, hblock _ (by rw [List.length_take, List.length_drop]; omega) ?_⟩
      intro c hc
      rw [if_pos hk, List.getElem?_take_of_lt hc, List.getElem?_drop]
    · rw [if_neg (fun h => hk (hiff.mp h))]
      have hcount : (if 0 ≤ k then (ks.filter fun k => decide ((nb : Int) ≤ k)).length + 1 else (ks.filter fun k => decide ((nb : Int) ≤ k)).length) =
          ((k :: ks).filter fun k => decide ((nb : Int) ≤ k)).length := by
        by_cases h0 : 0 ≤ k
        · rw [if_pos h0, List.filter_cons_of_pos (by simpa using (by omega : (nb : Int) ≤ k)), List.length_cons]
        · rw [if_neg h0, List.filter_cons_of_neg (by simpa using (by omega : k < (nb : Int)))]
      rw [hcount]
      refine ⟨_, rfl, hblock _ (by simp) ?_⟩
      intro c hc
      rw [if_neg hk, List.getElem?_replicate, if_pos hc]

/-- Non-trivial case: an index without block, and a negative one. -/
example : gather [1, -1, 0, 2] 2 [7, 1, 2, 3, 4] 1 0 = some (1, [3, 4, 0, 0, 1, 2, 0, 0]) := by decide

/-- **C48 fails** (F15) when the input does not consist of whole blocks: the bound check looks at the first value of a block only, and values outside the input are read. -/
theorem C48_counterexample_gather_partial_block : gather [1] 2 [1, 2, 3] 0 0 = none := by decide

end IFEM.Props
