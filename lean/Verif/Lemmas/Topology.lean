import Mathlib.Tactic.Ring
import Mathlib.Tactic.Linarith
import Verif.Model.Topology
import Verif.Spec.Topology
import Verif.Lemmas.ThreadStrips
/-!
# Lemmas on the connectivity of structured patches
-/
namespace IFEM.Topo
open IFEM.Spec IFEM.Threads

theorem getD_set {α : Type} (r : List α) (i pos : Nat) (v d : α) :
    (r.set i v).getD pos d = if i = pos ∧ i < r.length then v else r.getD pos d := by
  simp only [List.getD_eq_getElem?_getD, List.getElem?_set]
  by_cases h : i = pos
  · subst h
    by_cases h2 : i < r.length
    · simp [h2]
    · simp [h2]
  · simp [h]

theorem length_foldl {α β : Type} (f : List α → β → List α) (hf : ∀ r b, (f r b).length = r.length) (l : List β) (r : List α) :
    (l.foldl f r).length = r.length := by
  induction l generalizing r with
  | nil => rfl
  | cons b l ih => rw [List.foldl_cons, ih, hf]

/-! ### One dimension -/

theorem lagElm1_loop (r : List Nat) (n : Nat) (h : n < r.length) : 
    ∀ pos, ((List.range' 1 n).foldl (fun r a => r.set a (r.getD (a-1) 0 + 1)) r).getD pos 0 = if pos ≤ n then r.getD 0 0 + pos else r.getD pos 0 := by
  induction n with
  | zero =>
    intro pos
    simp only [List.range'_zero, List.foldl_nil]
    split_ifs with h
    · obtain rfl : pos = 0 := by omega
      rfl
    · rfl
  | succ n ih =>
    intro pos
    rw [List.range'_1_concat, List.foldl_append, List.foldl_cons, List.foldl_nil, getD_set, length_foldl _ (by simp), ih (by omega), ih (by omega)]
    split_ifs <;> omega

theorem length_lagElm1 (p iel : Nat) : (lagElm1 p iel).length = p := by
  unfold lagElm1
  rw [length_foldl _ (by simp)]; simp

theorem lagElm1_get (p iel a : Nat) (ha : a < p) : (lagElm1 p iel).getD a 0 = (p-1)*iel + a := by
  unfold lagElm1
  rw [lagElm1_loop _ _ (by simp; omega), if_pos (by omega), getD_set, if_pos (by simp; omega)]

/-! ### Two dimensions -/

theorem row_loop (base : Nat) (r : List Nat) (n : Nat) (h : base + n < r.length) :
    ∀ pos, ((List.range' 1 n).foldl (fun r a => r.set (base+a) (r.getD base 0 + a)) r).getD pos 0 =
      if base ≤ pos ∧ pos ≤ base + n then r.getD base 0 + (pos - base) else r.getD pos 0 := by
  induction n with
  | zero =>
    intro pos
    simp only [List.range'_zero, List.foldl_nil]
    split_ifs with h
    · obtain rfl : pos = base := by omega
      omega
    · rfl
  | succ n ih =>
    intro pos
    rw [List.range'_1_concat, List.foldl_append, List.foldl_cons, List.foldl_nil, getD_set, length_foldl _ (by simp), ih (by omega), ih (by omega)]
    split_ifs <;> omega

theorem length_lagRow2 (nx p1 c : Nat) (r : List Nat) (b : Nat) : (lagRow2 nx p1 c r b).length = r.length := by
  unfold lagRow2
  rw [length_foldl _ (by simp)]; simp

theorem lagRow2_get (nx p1 c : Nat) (r : List Nat) (b : Nat) (hp : 0 < p1) (h : (b+1)*p1 ≤ r.length) (pos : Nat) :
    (lagRow2 nx p1 c r b).getD pos 0 = if b*p1 ≤ pos ∧ pos < (b+1)*p1 then c + b*nx + (pos - b*p1) else r.getD pos 0 := by
  unfold lagRow2
  rw [Nat.add_mul, Nat.one_mul] at h ⊢
  rw [row_loop _ _ _ (by rw [List.length_set]; omega), getD_set, getD_set]
  split_ifs <;> omega

theorem lagElm2_loop (nx p1 c : Nat) (r : List Nat) (hp : 0 < p1) (n : Nat) (h : n*p1 ≤ r.length) :
    ∀ pos, ((List.range n).foldl (lagRow2 nx p1 c) r).getD pos 0 = if pos < n*p1 then c + (pos/p1)*nx + pos % p1 else r.getD pos 0 := by
  induction n with
  | zero => intro pos; simp
  | succ n ih =>
    intro pos
    have h1 : (n+1)*p1 = n*p1 + p1 := by ring
    rw [List.range_succ, List.foldl_append, List.foldl_cons, List.foldl_nil, lagRow2_get _ _ _ _ _ hp (by rw [length_foldl _ (length_lagRow2 _ _ _)]; exact h),
      ih (by omega)]
    by_cases h2 : n*p1 ≤ pos ∧ pos < (n+1)*p1
    · rw [if_pos h2, if_pos h2.2]
      have e1 : pos / p1 = n := Nat.div_eq_of_lt_le h2.1 h2.2
      have e2 : pos % p1 = pos - n*p1 := by rw [Nat.mod_eq_sub_mul_div, e1, Nat.mul_comm]
      rw [e1, e2]
    · rw [if_neg h2]
      split_ifs <;> first | rfl | omega

theorem length_lagElm2 (nx p1 p2 i j : Nat) : (lagElm2 nx p1 p2 i j).length = p1*p2 := by
  unfold lagElm2
  rw [length_foldl _ (length_lagRow2 _ _ _)]; simp

theorem lagElm2_get (nx p1 p2 i j a b : Nat) (ha : a < p1) (hb : b < p2) :
    (lagElm2 nx p1 p2 i j)[a + p1*b]? = some (gridNode2 nx ((p1-1)*i+a) ((p2-1)*j+b)) := by
  have hlt : a + p1*b < p1*p2 := by
    have := Nat.mul_le_mul_left p1 (show b+1 ≤ p2 by omega)
    rw [Nat.mul_add] at this; omega
  have := lagElm2_loop nx p1 ((p2-1)*nx*j + (p1-1)*i) (List.replicate (p1*p2) 0) (by omega) p2 (by simp [Nat.mul_comm]) (a + p1*b)
  rw [if_pos (by rw [Nat.mul_comm p2]; exact hlt), Nat.add_mul_div_left _ _ (by omega), Nat.div_eq_of_lt ha, Nat.add_mul_mod_self_left, Nat.mod_eq_of_lt ha] at this
  have h2 : (lagElm2 nx p1 p2 i j).getD (a + p1*b) 0 = (lagElm2 nx p1 p2 i j)[a + p1*b]'(by rw [length_lagElm2]; exact hlt) := by
    simp [List.getD_eq_getElem?_getD, List.getElem?_eq_getElem (show a + p1*b < (lagElm2 nx p1 p2 i j).length by rw [length_lagElm2]; exact hlt)]
  rw [List.getElem?_eq_getElem (by rw [length_lagElm2]; exact hlt), ← h2]
  unfold lagElm2
  rw [this]
  unfold gridNode2
  congr 1
  ring

/-! ### Three dimensions -/

theorem length_lagCol3 (fn cn : Nat) (r : List Nat) (a : Nat) : (lagCol3 fn cn r a).length = r.length := by simp [lagCol3]

theorem lagCol3_get (fn cn : Nat) (r : List Nat) (a : Nat) (hc : cn + a < fn) (h : fn + a < r.length) (pos : Nat) :
    (lagCol3 fn cn r a).getD pos 0 = if pos = cn + a then r.getD cn 0 + a else if pos = fn + a then r.getD fn 0 + a else r.getD pos 0 := by
  unfold lagCol3
  dsimp only
  simp only [getD_set, List.length_set]
  split_ifs <;> omega

theorem col_loop (fn cn : Nat) (r : List Nat) (n : Nat) (hc : cn + n < fn) (h : fn + n < r.length) :
    ∀ pos, ((List.range' 1 n).foldl (lagCol3 fn cn) r).getD pos 0 =
      if fn ≤ pos ∧ pos ≤ fn + n then r.getD fn 0 + (pos - fn) else if cn ≤ pos ∧ pos ≤ cn + n then r.getD cn 0 + (pos - cn) else r.getD pos 0 := by
  induction n with
  | zero =>
    intro pos
    simp only [List.range'_zero, List.foldl_nil]
    split_ifs with h h2
    · obtain rfl : pos = fn := by omega
      omega
    · obtain rfl : pos = cn := by omega
      omega
    · rfl
  | succ n ih =>
    intro pos
    have ih' := ih (by omega) (by omega)
    rw [List.range'_1_concat, List.foldl_append, List.foldl_cons, List.foldl_nil,
      lagCol3_get _ _ _ _ (by omega) (by rw [length_foldl _ (length_lagCol3 _ _)]; omega), ih', ih', ih']
    split_ifs <;> omega

theorem length_lagRow3 (nx p1 cn : Nat) (r : List Nat) (b : Nat) : (lagRow3 nx p1 cn r b).length = r.length := by
  unfold lagRow3
  rw [length_foldl _ (length_lagCol3 _ _)]; simp

theorem lagRow3_get (nx p1 cn : Nat) (r : List Nat) (b : Nat) (hp : 0 < p1) (hb : 0 < b) (h : cn + (b+1)*p1 ≤ r.length) (pos : Nat) :
    (lagRow3 nx p1 cn r b).getD pos 0 = if cn + b*p1 ≤ pos ∧ pos < cn + (b+1)*p1 then r.getD cn 0 + b*nx + (pos - (cn + b*p1))
      else if cn ≤ pos ∧ pos < cn + p1 then r.getD cn 0 + (pos - cn) else r.getD pos 0 := by
  unfold lagRow3
  have hbp : p1 ≤ b*p1 := Nat.le_mul_of_pos_left p1 hb
  rw [Nat.add_mul, Nat.one_mul] at h ⊢
  rw [col_loop _ _ _ _ (by omega) (by rw [List.length_set]; omega), getD_set, getD_set, getD_set]
  split_ifs <;> omega

theorem lagLayer3_loop (nx p1 cn : Nat) (r : List Nat) (hp : 0 < p1) (n : Nat) (h : cn + (n+1+1)*p1 ≤ r.length) :
    ∀ pos, ((List.range' 1 (n+1)).foldl (lagRow3 nx p1 cn) r).getD pos 0 =
      if cn ≤ pos ∧ pos < cn + (n+1+1)*p1 then r.getD cn 0 + ((pos-cn)/p1)*nx + (pos-cn) % p1 else r.getD pos 0 := by
  have small : ∀ q, q < p1 → q / p1 = 0 ∧ q % p1 = q := fun q hq => ⟨Nat.div_eq_of_lt hq, Nat.mod_eq_of_lt hq⟩
  have mid : ∀ m q, m*p1 ≤ q → q < (m+1)*p1 → q / p1 = m ∧ q % p1 = q - m*p1 := fun m q h1 h2 => by
    have e1 : q / p1 = m := Nat.div_eq_of_lt_le h1 h2
    exact ⟨e1, by rw [Nat.mod_eq_sub_mul_div, e1, Nat.mul_comm]⟩
  induction n with
  | zero =>
    intro pos
    simp only [Nat.zero_add, List.range'_one, List.foldl_cons, List.foldl_nil]
    rw [lagRow3_get _ _ _ _ _ hp (by omega) h]
    by_cases h1 : cn + 1*p1 ≤ pos ∧ pos < cn + (1+1)*p1
    · rw [if_pos h1, if_pos (by omega)]
      obtain ⟨e1, e2⟩ := mid 1 (pos-cn) (by omega) (by omega)
      rw [e1, e2]; omega
    · rw [if_neg h1]
      by_cases h2 : cn ≤ pos ∧ pos < cn + p1
      · rw [if_pos h2, if_pos (by omega)]
        obtain ⟨e1, e2⟩ := small (pos-cn) (by omega)
        rw [e1, e2]; omega
      · rw [if_neg h2, if_neg (by omega)]
  | succ n ih =>
    intro pos
    have e0 : (n+1+1+1)*p1 = (n+1+1)*p1 + p1 := by ring
    have ih' := ih (by omega)
    have ep : p1 ≤ (n+1+1)*p1 := Nat.le_mul_of_pos_left p1 (by omega)
    have e3 : (1 + (n+1))*p1 = (n+1+1)*p1 := by ring
    have e4 : (1 + (n+1)+1)*p1 = (n+1+1)*p1 + p1 := by ring
    rw [List.range'_1_concat, List.foldl_append, List.foldl_cons, List.foldl_nil,
      lagRow3_get _ _ _ _ _ hp (by omega) (by rw [length_foldl _ (length_lagRow3 _ _ _), e4]; omega), e3, e4, e0]
    have ihc := ih' cn
    rw [if_pos (by omega), Nat.sub_self, Nat.zero_div, Nat.zero_mod] at ihc
    rw [ihc, ih' pos]
    by_cases h1 : cn + (n+1+1)*p1 ≤ pos ∧ pos < cn + ((n+1+1)*p1 + p1)
    · rw [if_pos h1, if_pos (by omega)]
      obtain ⟨e1, e2⟩ := mid (n+1+1) (pos-cn) (by omega) (by omega)
      rw [e1, e2, show 1 + (n+1) = n+1+1 by omega]; omega
    · rw [if_neg h1]
      by_cases h2 : cn ≤ pos ∧ pos < cn + p1
      · rw [if_pos h2, if_pos (by omega)]
        obtain ⟨e1, e2⟩ := small (pos-cn) (by omega)
        rw [e1, e2]; omega
      · rw [if_neg h2]
        by_cases h3 : cn ≤ pos ∧ pos < cn + (n+1+1)*p1
        · rw [if_pos h3, if_pos (by omega)]
        · rw [if_neg h3, if_neg (by omega)]

theorem length_lagLayer3 (nx ny p1 p2 c : Nat) (r : List Nat) (k : Nat) : (lagLayer3 nx ny p1 p2 c r k).length = r.length := by
  unfold lagLayer3
  rw [length_foldl _ (length_lagRow3 _ _ _)]; simp

theorem lagLayer3_get (nx ny p1 p2 c : Nat) (r : List Nat) (k : Nat) (hp : 0 < p1) (hp2 : 2 ≤ p2) (h : (k+1)*(p1*p2) ≤ r.length) (pos : Nat) :
    (lagLayer3 nx ny p1 p2 c r k).getD pos 0 = if k*(p1*p2) ≤ pos ∧ pos < (k+1)*(p1*p2) then
      c + k*nx*ny + ((pos-k*(p1*p2))/p1)*nx + (pos-k*(p1*p2)) % p1 else r.getD pos 0 := by
  unfold lagLayer3
  obtain ⟨n, rfl⟩ : ∃ n, p2 = n+1+1 := ⟨p2-2, by omega⟩
  have e : (k+1)*(p1*(n+1+1)) = k*(p1*(n+1+1)) + (n+1+1)*p1 := by ring
  have e2 : p1*(n+1+1)*k = k*(p1*(n+1+1)) := by ring
  rw [e] at h ⊢
  rw [e2, show n+1+1-1 = n+1 by omega, lagLayer3_loop _ _ _ _ hp _ (by rw [List.length_set]; exact h)]
  have ep : p1 ≤ (n+1+1)*p1 := Nat.le_mul_of_pos_left p1 (by omega)
  rw [getD_set, getD_set]
  by_cases h1 : k*(p1*(n+1+1)) ≤ pos ∧ pos < k*(p1*(n+1+1)) + (n+1+1)*p1
  · rw [if_pos h1, if_pos h1, if_pos ⟨rfl, by omega⟩]
  · rw [if_neg h1, if_neg h1, if_neg (by omega)]

theorem lagElm3_loop (nx ny p1 p2 c : Nat) (r : List Nat) (hp : 0 < p1) (hp2 : 2 ≤ p2) (n : Nat) (h : n*(p1*p2) ≤ r.length) :
    ∀ pos, ((List.range n).foldl (lagLayer3 nx ny p1 p2 c) r).getD pos 0 =
      if pos < n*(p1*p2) then c + (pos/(p1*p2))*nx*ny + ((pos % (p1*p2))/p1)*nx + (pos % (p1*p2)) % p1 else r.getD pos 0 := by
  induction n with
  | zero => intro pos; simp
  | succ n ih =>
    intro pos
    have h1 : (n+1)*(p1*p2) = n*(p1*p2) + p1*p2 := by ring
    rw [List.range_succ, List.foldl_append, List.foldl_cons, List.foldl_nil,
      lagLayer3_get _ _ _ _ _ _ _ hp hp2 (by rw [length_foldl _ (length_lagLayer3 _ _ _ _ _)]; exact h), ih (by omega)]
    by_cases h2 : n*(p1*p2) ≤ pos ∧ pos < (n+1)*(p1*p2)
    · rw [if_pos h2, if_pos h2.2]
      have e1 : pos / (p1*p2) = n := Nat.div_eq_of_lt_le h2.1 h2.2
      have e2 : pos % (p1*p2) = pos - n*(p1*p2) := by rw [Nat.mod_eq_sub_mul_div, e1, Nat.mul_comm]
      rw [e1, e2]
    · rw [if_neg h2]
      split_ifs <;> first | rfl | omega

theorem length_lagElm3 (nx ny p1 p2 p3 i j k : Nat) : (lagElm3 nx ny p1 p2 p3 i j k).length = p1*p2*p3 := by
  unfold lagElm3
  rw [length_foldl _ (length_lagLayer3 _ _ _ _ _)]; simp

theorem lt2 {a b n m : Nat} (ha : a < n) (hb : b < m) : a + n*b < n*m := by
  have := Nat.mul_le_mul_left n (show b+1 ≤ m by omega)
  rw [Nat.mul_add] at this; omega

theorem lagElm3_get (nx ny p1 p2 p3 i j k a b c : Nat) (ha : a < p1) (hb : b < p2) (hc : c < p3) (hp2 : 2 ≤ p2) :
    (lagElm3 nx ny p1 p2 p3 i j k)[a + p1*(b + p2*c)]? = some (gridNode3 nx ny ((p1-1)*i+a) ((p2-1)*j+b) ((p3-1)*k+c)) := by
  have hlt : a + p1*(b + p2*c) < p1*p2*p3 := by rw [Nat.mul_assoc]; exact lt2 ha (lt2 hb hc)
  have hab : a + p1*b < p1*p2 := lt2 ha hb
  have e : a + p1*(b + p2*c) = (a + p1*b) + p1*p2*c := by ring
  have := lagElm3_loop nx ny p1 p2 ((p3-1)*(nx*ny)*k + (p2-1)*nx*j + (p1-1)*i) (List.replicate (p1*p2*p3) 0) (by omega) hp2 p3 (by simp [Nat.mul_comm])
    (a + p1*(b + p2*c))
  rw [if_pos (by rw [Nat.mul_comm p3]; exact hlt), e, Nat.add_mul_div_left _ _ (by omega), Nat.div_eq_of_lt hab, Nat.add_mul_mod_self_left, Nat.mod_eq_of_lt hab,
    Nat.add_mul_div_left _ _ (by omega), Nat.div_eq_of_lt ha, Nat.add_mul_mod_self_left, Nat.mod_eq_of_lt ha, ← e] at this
  have hl : a + p1*(b + p2*c) < (lagElm3 nx ny p1 p2 p3 i j k).length := by rw [length_lagElm3]; exact hlt
  have h2 : (lagElm3 nx ny p1 p2 p3 i j k).getD (a + p1*(b + p2*c)) 0 = (lagElm3 nx ny p1 p2 p3 i j k)[a + p1*(b + p2*c)]'hl := by
    simp [List.getD_eq_getElem?_getD, List.getElem?_eq_getElem hl]
  rw [List.getElem?_eq_getElem hl, ← h2]
  unfold lagElm3
  rw [this]
  unfold gridNode3
  congr 1
  ring

end IFEM.Topo
