import Verif.Spec.Utilities
import Mathlib.Tactic.Ring
import Mathlib.Tactic.IntervalCases
import Mathlib.Data.Nat.Digits.Defs
/-!
# C34, C35: integer lists and digits
-/
namespace IFEM.Props
open IFEM.Spec

/-! ## Integer lists -/

theorem cDigit_digitChar (d : Nat) (h : d < 10) : cDigit? (digitChar d) = some d := by
  interval_cases d <;> decide

/-- The text does not start with a digit. -/
def NoDigit : List Char → Prop
  | [] => True
  | c :: _ => cDigit? c = none

theorem readDigits_text (ds : List Nat) (h : ∀ d ∈ ds, d < 10) (v : Nat) (rest : List Char) (hr : NoDigit rest) :
    readDigits v (ds.map digitChar ++ rest) = (ds.foldl (fun v d => 10*v + d) v, rest) := by
  induction ds generalizing v with
  | nil =>
    cases rest with
    | nil => rfl
    | cons c cs => simp only [List.map_nil, List.nil_append, readDigits]; rw [show cDigit? c = none from hr]; rfl
  | cons d ds ih =>
    simp only [List.map_cons, List.cons_append, readDigits, cDigit_digitChar d (h d (by simp)), List.foldl_cons]
    exact ih (fun x hx => h x (List.mem_cons_of_mem _ hx)) _

theorem digit_not_space (d : Nat) (h : d < 10) : cSpace (digitChar d) = false ∧ digitChar d ≠ '-' ∧ digitChar d ≠ '+' := by
  interval_cases d <;> decide

theorem readSign_digit (d : Nat) (h : d < 10) (cs : List Char) : readSign (digitChar d :: cs) = (false, digitChar d :: cs) := by
  interval_cases d <;> rfl

theorem strtol_text (n : Numeral) (hn : n.Valid) (rest : List Char) (hr : NoDigit rest) :
    strtol (n.text ++ rest) = (n.value, rest) := by
  obtain ⟨neg, ds⟩ := n
  obtain ⟨h1, h2⟩ := hn
  dsimp only at h1 h2
  match ds, h1, h2 with
  | d :: ds, _, h2 =>
    have hd : d < 10 := h2 d (by simp)
    have hrd := readDigits_text (d :: ds) h2 0 rest hr
    rw [List.map_cons, List.cons_append] at hrd
    cases neg with
    | false =>
      simp only [Numeral.text, Numeral.value, Bool.false_eq_true, if_false, List.nil_append, List.map_cons, List.cons_append]
      unfold strtol
      rw [List.dropWhile_cons_of_neg (by rw [(digit_not_space d hd).1]; simp), readSign_digit d hd]
      dsimp only
      rw [cDigit_digitChar d hd]
      dsimp only
      rw [hrd]
      rfl
    | true =>
      simp only [Numeral.text, Numeral.value, if_true, List.map_cons, List.cons_append, List.nil_append]
      unfold strtol
      rw [List.dropWhile_cons_of_neg (by decide)]
      simp only [readSign]
      rw [cDigit_digitChar d hd]
      dsimp only
      rw [hrd]
      rfl

theorem strtol_blank (s : List Char) (v : Int) (rest : List Char) (h : strtol s = (v, rest)) (hne : rest.length < s.length) :
    strtol (' ' :: s) = (v, rest) := by
  unfold strtol at h ⊢
  rw [List.dropWhile_cons_of_pos (by decide)]
  generalize readSign (s.dropWhile cSpace) = r at h ⊢
  obtain ⟨neg, s1⟩ := r
  dsimp only at h ⊢
  cases s1 with
  | nil =>
    simp only [Prod.mk.injEq] at h
    rw [← h.2] at hne
    omega
  | cons c cs =>
    dsimp only at h ⊢
    cases hd : cDigit? c with
    | none =>
      rw [hd] at h
      simp only [Prod.mk.injEq] at h
      rw [← h.2] at hne
      omega
    | some d => rw [hd] at h; exact h

theorem parseLoop_cons (s : List Char) (hs : s ≠ []) (vs out : List Int) (rest : List Char) (h : parseOne s = (out, some rest)) :
    parseLoop s vs = parseLoop rest (vs ++ out) := by
  rw [parseLoop, dif_neg hs]
  split
  · rename_i h'; rw [h] at h'; simp at h'
  · rename_i r h'; rw [h] at h'; simp only [Option.some.injEq] at h'; rw [h, h']

theorem noDigit_cons_sep (c : Char) (h : c = ' ' ∨ c = ',' ∨ c = ':') (cs : List Char) : NoDigit (c :: cs) := by
  rcases h with rfl | rfl | rfl <;> (show cDigit? _ = none) <;> decide

theorem text_length_pos (n : Numeral) (hn : n.Valid) : 0 < n.text.length := by
  obtain ⟨h1, -⟩ := hn
  have := List.length_pos_iff.mpr h1
  simp only [Numeral.text, List.length_append, List.length_map]
  omega

theorem countUp_eq (a : Int) (n : Nat) : countUp a n = (List.range n).map fun i : Nat => a + 1 + (i : Int) := by
  induction n generalizing a with
  | zero => rfl
  | succ n ih =>
    rw [countUp, ih, List.range_succ_eq_map, List.map_cons, List.map_map]
    simp only [Nat.cast_zero, add_zero, List.cons.injEq, true_and]
    apply List.map_congr_left
    intro i _
    simp only [Function.comp]
    push_cast
    ring

theorem fromTo_eq (a b : Int) : fromTo a b = a :: countUp a (b - a).toNat := by
  rw [countUp_eq, fromTo, List.range_succ_eq_map, List.map_cons, List.map_map]
  simp only [Nat.cast_zero, add_zero, List.cons.injEq, true_and]
  apply List.map_congr_left
  intro i _
  simp only [Function.comp]
  push_cast
  ring

/-- Text following an item: nothing, or a separator and more. -/
def Follow (it : Item) (rest : List Char) : Prop :=
  rest = [] ∨ (∃ r, rest = ' ' :: r) ∨ (∃ r n, rest = ',' :: r ∧ it = .num n)

/-- The remaining text after an item: a comma is skipped. -/
def afterItem : List Char → List Char
  | ',' :: r => r
  | r => r

theorem strtol_pre (pre : List Char) (hpre : pre = [] ∨ pre = [' ']) (n : Numeral) (hn : n.Valid) (rest : List Char) (hr : NoDigit rest) :
    strtol (pre ++ n.text ++ rest) = (n.value, rest) := by
  have h := strtol_text n hn rest hr
  rcases hpre with rfl | rfl
  · exact h
  · refine strtol_blank _ _ _ h ?_
    have := text_length_pos n hn
    have e : (n.text ++ rest).length = n.text.length + rest.length := List.length_append
    show rest.length < (n.text ++ rest).length
    omega

theorem parseOne_item (pre : List Char) (hpre : pre = [] ∨ pre = [' ']) (it : Item) (hv : it.Valid) (rest : List Char) (hf : Follow it rest) :
    parseOne (pre ++ it.text ++ rest) = (it.values, some (afterItem rest)) := by
  have hr : NoDigit rest := by
    rcases hf with rfl | ⟨r, rfl⟩ | ⟨r, n, rfl, -⟩
    · trivial
    · exact noDigit_cons_sep _ (by simp) r
    · exact noDigit_cons_sep _ (by simp) r
  cases it with
  | num n =>
    have hs : strtol (pre ++ (Item.num n).text ++ rest) = (n.value, rest) := strtol_pre pre hpre n hv rest hr
    have hl : 0 < (Item.num n).text.length := text_length_pos n hv
    unfold parseOne
    rw [hs]
    dsimp only
    rcases hf with rfl | ⟨r, rfl⟩ | ⟨r, n', rfl, -⟩
    · rfl
    · dsimp only
      rw [if_neg (by decide), if_neg (by decide), if_neg (by simp only [List.length_append, List.length_cons]; omega)]
      rfl
    · dsimp only
      rw [if_pos rfl]
      rfl
  | range a b =>
    have hs := strtol_pre pre hpre a hv.1 (':' :: (b.text ++ rest)) (noDigit_cons_sep _ (by simp) _)
    have hs2 := strtol_text b hv.2 rest hr
    have e : pre ++ (Item.range a b).text ++ rest = pre ++ a.text ++ ':' :: (b.text ++ rest) := by
      simp [Item.text]
    unfold parseOne
    rw [e, hs]
    dsimp only
    rw [if_neg (by decide), if_pos rfl, hs2]
    dsimp only
    rw [← fromTo_eq]
    rcases hf with rfl | ⟨r, rfl⟩ | ⟨r, n', rfl, h'⟩
    · rfl
    · rfl
    · simp at h'

theorem parseLoop_list (pre : List Char) (hpre : pre = [] ∨ pre = [' ']) (it : Item) (rest : List (Char × Item)) (h : ListOk it rest) (vs : List Int) :
    parseLoop (pre ++ listText it rest) vs = (true, vs ++ listValues it rest) := by
  induction rest generalizing pre it vs with
  | nil =>
    have := parseOne_item pre hpre it h [] (Or.inl rfl)
    have hne : pre ++ it.text ++ [] ≠ [] := by
      intro h0
      have hl : (pre ++ it.text ++ []).length = 0 := by rw [h0]; rfl
      cases it with
      | num n => have := text_length_pos n h; simp only [Item.text, List.length_append] at hl; omega
      | range a b => simp [Item.text] at hl
    simp only [listText, List.flatMap_nil, listValues]
    rw [← List.append_assoc, parseLoop_cons _ hne _ _ _ this, afterItem, parseLoop, dif_pos rfl]
    simp
    intro r hr; simp at hr
  | cons p rest ih =>
    obtain ⟨sep, it'⟩ := p
    obtain ⟨hv, hsep, hok⟩ := h
    have hne : ∀ r, pre ++ it.text ++ r ≠ [] := by
      intro r h0
      have hl : (pre ++ it.text ++ r).length = 0 := by rw [h0]; rfl
      cases it with
      | num n => have := text_length_pos n hv; simp only [Item.text, List.length_append] at hl; omega
      | range a b => simp [Item.text] at hl
    have hval : listValues it ((sep, it') :: rest) = it.values ++ listValues it' rest := by
      simp [listValues, List.flatMap_cons]
    rcases hsep with rfl | ⟨rfl, n, rfl⟩
    · have e : pre ++ listText it ((' ', it') :: rest) = pre ++ it.text ++ ([' '] ++ listText it' rest) := by
        simp [listText, List.flatMap_cons]
      have := parseOne_item pre hpre it hv ([' '] ++ listText it' rest) (Or.inr (Or.inl ⟨_, rfl⟩))
      rw [e, parseLoop_cons _ (hne _) _ _ _ this]
      show parseLoop ([' '] ++ listText it' rest) _ = _
      rw [ih [' '] (Or.inr rfl) it' hok, hval, List.append_assoc]
    · have e : pre ++ listText (.num n) ((',', it') :: rest) = pre ++ (Item.num n).text ++ (',' :: listText it' rest) := by
        simp [listText, List.flatMap_cons]
      have := parseOne_item pre hpre (.num n) hv (',' :: listText it' rest) (Or.inr (Or.inr ⟨_, n, rfl, rfl⟩))
      rw [e, parseLoop_cons _ (hne _) _ _ _ this]
      show parseLoop (listText it' rest) _ = _
      have hih := ih [] (Or.inl rfl) it' hok (vs ++ (Item.num n).values)
      rw [List.nil_append] at hih
      rw [hih, hval, List.append_assoc]

theorem digitChar_ne_comma (d : Nat) (h : d < 10) : digitChar d ≠ ',' := by
  interval_cases d <;> decide

theorem text_getLast (n : Numeral) (hn : n.Valid) : ∃ d < 10, n.text.getLast? = some (digitChar d) := by
  obtain ⟨h1, h2⟩ := hn
  refine ⟨n.ds.getLast h1, h2 _ (List.getLast_mem h1), ?_⟩
  rw [Numeral.text, List.getLast?_append, List.getLast?_map, List.getLast?_eq_getLast_of_ne_nil h1]
  rfl

theorem item_getLast (it : Item) (hv : it.Valid) : ∃ d < 10, it.text.getLast? = some (digitChar d) := by
  cases it with
  | num n => exact text_getLast n hv
  | range a b =>
    obtain ⟨d, hd, e⟩ := text_getLast b hv.2
    refine ⟨d, hd, ?_⟩
    rw [Item.text, List.getLast?_append, List.getLast?_cons, e]
    rfl

theorem listText_getLast (it : Item) (rest : List (Char × Item)) (h : ListOk it rest) : ∃ d < 10, (listText it rest).getLast? = some (digitChar d) := by
  induction rest generalizing it with
  | nil => simpa [listText] using item_getLast it h
  | cons p rest ih =>
    obtain ⟨sep, it'⟩ := p
    obtain ⟨d, hd, e⟩ := ih it' h.2.2
    refine ⟨d, hd, ?_⟩
    have e1 : listText it ((sep, it') :: rest) = (it.text ++ [sep]) ++ listText it' rest := by
      simp [listText, List.flatMap_cons]
    rw [e1, List.getLast?_append, e]
    rfl

theorem item_values_pos (it : Item) : 0 < it.values.length := by
  cases it <;> simp [Item.values, fromTo]

/-- **C34**. Every well-formed list of numbers and ranges, separated by blanks, or by commas after numbers, is parsed to the listed integers and
the integers of the inclusive ranges, in order, added behind the existing values. -/
theorem C34_parse_integers (it : Item) (rest : List (Char × Item)) (h : ListOk it rest) (vs : List Int) :
    parseIntegers vs (listText it rest) = (true, vs ++ listValues it rest) := by
  have hp := parseLoop_list [] (Or.inl rfl) it rest h vs
  rw [List.nil_append] at hp
  obtain ⟨d, hd, e⟩ := listText_getLast it rest h
  unfold parseIntegers
  rw [hp]
  dsimp only
  rw [e, if_neg (by simpa using digitChar_ne_comma d hd)]
  have := item_values_pos it
  simp only [Prod.mk.injEq, decide_eq_true_eq, and_true]
  simp only [listValues, List.length_append]
  omega

/-- Non-trivial case: "10 3:5 -2,7". -/
example : listText (.num ⟨false, [1, 0]⟩) [(' ', .range ⟨false, [3]⟩ ⟨false, [5]⟩), (' ', .num ⟨true, [2]⟩), (',', .num ⟨false, [7]⟩)] = "10 3:5 -2,7".toList ∧
    listValues (.num ⟨false, [1, 0]⟩) [(' ', .range ⟨false, [3]⟩ ⟨false, [5]⟩), (' ', .num ⟨true, [2]⟩), (',', .num ⟨false, [7]⟩)] = [10, 3, 4, 5, -2, 7] := by
  decide

/-- **C34 fails** (F10) for a comma after a range: "1:3,5" gives a spurious zero. -/
theorem C34_counterexample_comma_after_range : parseIntegers [] "1:3,5".toList = (true, [1, 2, 3, 0, 5]) := by
  decide +kernel

/-! ## Digits -/

/-- **C35** (digits). The digits of a component code are its decimal digits. -/
theorem C35_digits (num : Nat) : getDigits num = Nat.digits 10 num := by
  induction num using Nat.strong_induction_on with
  | _ n ih =>
    rw [getDigits]
    by_cases h : n = 0
    · subst h; simp
    · rw [dif_neg h, ih (n / 10) (Nat.div_lt_self (Nat.pos_of_ne_zero h) (by decide)),
        Nat.digits_def' (by decide) (Nat.pos_of_ne_zero h)]

/-- The list `n, n-1, …, 1`. -/
def downFrom : Nat → List Nat
  | 0 => []
  | n+1 => (n+1) :: downFrom n

theorem getDirsLoop_eq (n res mul : Nat) : getDirsLoop n res mul = res + mul * Nat.ofDigits 10 (downFrom n) := by
  induction n generalizing res mul with
  | zero => simp [getDirsLoop, downFrom]
  | succ n ih =>
    rw [getDirsLoop, ih, downFrom, Nat.ofDigits_cons]
    push_cast
    ring

theorem downFrom_mem (n x : Nat) : x ∈ downFrom n ↔ 1 ≤ x ∧ x ≤ n := by
  induction n with
  | zero => simp [downFrom]; omega
  | succ n ih => rw [downFrom, List.mem_cons, ih]; omega

/-- **C35** (all directions). For up to nine components, the code of all components has exactly the digits `1, …, n`, so that the code is decoded to all components. -/
theorem C35_dirs (n : Nat) (h : n ≤ 9) (d : Nat) : d ∈ getDigits (getDirs n) ↔ 1 ≤ d ∧ d ≤ n := by
  rw [C35_digits, getDirs, getDirsLoop_eq, zero_add, one_mul]
  rw [Nat.digits_ofDigits 10 (by decide)]
  · exact downFrom_mem n d
  · intro l hl; rw [downFrom_mem] at hl; omega
  · intro hne
    have := List.getLast_mem hne
    rw [downFrom_mem] at this
    omega

end IFEM.Props
