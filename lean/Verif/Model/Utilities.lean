import Mathlib.Algebra.Order.Field.Basic
import Mathlib.Data.List.Sort
/-!
# Utilities

Models functions of src/Utility/Utilities.C.  Strings are lists of characters, without the terminating zero.
-/
namespace IFEM

/-! ## Integer lists -/

/-- `isspace` in the C locale. -/
def cSpace (c : Char) : Bool := c == ' ' || c == '\t' || c == '\n' || c == '\r' || c == '\x0b' || c == '\x0c'

/-- The value of a decimal digit. -/
def cDigit? (c : Char) : Option Nat := if '0'.toNat ≤ c.toNat ∧ c.toNat ≤ '9'.toNat then some (c.toNat - '0'.toNat) else none

/-- Reads decimal digits, given the value read so far: the value and the remaining text. -/
def readDigits : Nat → List Char → Nat × List Char
  | v, [] => (v, [])
  | v, c :: cs => match cDigit? c with
    | some d => readDigits (10*v + d) cs
    | none => (v, c :: cs)

/-- The optional sign of a number. -/
def readSign : List Char → Bool × List Char
  | '-' :: cs => (true, cs)
  | '+' :: cs => (false, cs)
  | cs => (false, cs)

/-- `strtol(s,&endp,10)` of the C library, without overflow: the value and the text at `endp`.  Without digits the value
is zero and `endp` is the start. -/
def strtol (s : List Char) : Int × List Char :=
  let (neg, s1) := readSign (s.dropWhile cSpace)
  match s1 with
  | [] => (0, s)
  | c :: _ => match cDigit? c with
    | none => (0, s)
    | some _ =>
      let (v, rest) := readDigits 0 s1
      (if neg then -(v : Int) else v, rest)

theorem readDigits_length (v : Nat) (s : List Char) : (readDigits v s).2.length ≤ s.length := by
  induction s generalizing v with
  | nil => simp [readDigits]
  | cons c cs ih =>
    rw [readDigits]
    split
    · exact Nat.le_succ_of_le (ih _)
    · simp

theorem readDigits_length_lt (v : Nat) (c : Char) (cs : List Char) (d : Nat) (h : cDigit? c = some d) :
    (readDigits v (c :: cs)).2.length < (c :: cs).length := by
  rw [readDigits, h]
  exact Nat.lt_succ_of_le (readDigits_length _ _)

theorem readSign_length (s : List Char) : (readSign s).2.length ≤ s.length := by
  unfold readSign
  split <;> simp

/-- `strtol` either consumes nothing or at least one character. -/
theorem strtol_rest (s : List Char) : (strtol s).2 = s ∨ (strtol s).2.length < s.length := by
  unfold strtol
  have h1 : (readSign (s.dropWhile cSpace)).2.length ≤ s.length :=
    le_trans (readSign_length _) (List.dropWhile_sublist cSpace).length_le
  generalize readSign (s.dropWhile cSpace) = r at h1
  obtain ⟨neg, s1⟩ := r
  dsimp only at h1 ⊢
  split
  · exact Or.inl rfl
  · rename_i c cs
    split
    · exact Or.inl rfl
    · rename_i d hd
      exact Or.inr (lt_of_lt_of_le (readDigits_length_lt 0 c cs d hd) h1)

/-- The values pushed by `while (values.back() < endVal) values.push_back(values.back()+1)` (Utilities.C:39-40), with `n` values to go. -/
def countUp (a : Int) : Nat → List Int
  | 0 => []
  | n+1 => (a+1) :: countUp (a+1) n

/-- One iteration of the main loop of `utl::parseIntegers` (Utilities.C:30-47) on a non-empty text: the values added, and the remaining text or
`none` for malformed input, which is recognised by `endp == oldp`, i.e., no character was consumed. -/
def parseOne (s : List Char) : List Int × Option (List Char) :=
  let r := strtol s
  match r.2 with
  | [] => ([r.1], some [])
  | c :: rest =>
    if c = ',' then ([r.1], some rest)
    else if c = ':' then
      let e := strtol rest
      (r.1 :: countUp r.1 (e.1 - r.1).toNat, some e.2)
    else if (c :: rest).length = s.length then ([r.1], none)
    else ([r.1], some (c :: rest))

theorem parseOne_length (s : List Char) (hs : s ≠ []) (rest : List Char) (h : (parseOne s).2 = some rest) : rest.length < s.length := by
  have hr := strtol_rest s
  have hpos : 0 < s.length := List.length_pos_iff.mpr hs
  unfold parseOne at h
  dsimp only at h
  generalize hrr : (strtol s).2 = r2 at h hr
  cases r2 with
  | nil => simp only [Option.some.injEq] at h; rw [← h]; simpa using hpos
  | cons c r =>
    have hle : (c :: r).length ≤ s.length := by
      rcases hr with h | h
      · rw [h]
      · omega
    simp only [List.length_cons] at hle
    dsimp only at h
    split at h
    · simp only [Option.some.injEq] at h; rw [← h]; omega
    split at h
    · simp only [Option.some.injEq] at h
      rw [← h]
      rcases strtol_rest r with h2 | h2
      · rw [h2]; omega
      · omega
    split at h
    · simp at h
    · rename_i hne
      simp only [Option.some.injEq] at h
      rw [← h]
      simp only [List.length_cons] at hne ⊢
      omega

/-- The main loop of `utl::parseIntegers` (Utilities.C:28-48): success flag and new values. -/
def parseLoop (s : List Char) (values : List Int) : Bool × List Int :=
  if hs : s = [] then (true, values)
  else match h : (parseOne s).2 with
    | none => (false, values ++ (parseOne s).1)
    | some rest => parseLoop rest (values ++ (parseOne s).1)
termination_by s.length
decreasing_by exact parseOne_length s hs rest h

/-- `utl::parseIntegers` (Utilities.C:22-55) for a non-null string. -/
def parseIntegers (values : List Int) (s : List Char) : Bool × List Int :=
  match parseLoop s values with
  | (false, vs) => (false, vs)
  | (true, vs) =>
    let vs := if s.getLast? = some ',' then vs ++ [0] else vs
    (decide (vs.length > values.length), vs)

/-! ## Digits -/

/-- `utl::getDigits` (Utilities.C:479-487) for a nonnegative number; the set is represented by the list of inserted digits. -/
def getDigits (num : Nat) : List Nat :=
  if h : num = 0 then [] else (num % 10) :: getDigits (num / 10)
termination_by num
decreasing_by exact Nat.div_lt_self (Nat.pos_of_ne_zero h) (by decide)

/-- The loop of `utl::getDirs` (Utilities.C:490-497): `i` counts down to one. -/
def getDirsLoop : Nat → Nat → Nat → Nat
  | 0, res, _ => res
  | i+1, res, mul => getDirsLoop i (res + (i+1)*mul) (mul*10)

/-- `utl::getDirs` (Utilities.C:490-497) for a nonnegative number. -/
def getDirs (ncmp : Nat) : Nat := getDirsLoop ncmp 0 1

/-! ## Arrays -/

variable {K : Type} [Field K] [LinearOrder K]

/-- `utl::find_closest` (Utilities.C:455-466); `std::lower_bound` of a sorted array is the number of leading elements below `v`. -/
def findClosest (a : List K) (v : K) : Nat :=
  let i := (a.takeWhile fun x => decide (x < v)).length
  if 0 < i ∧ i < a.length then
    match a[i]?, a[i-1]? with
    | some x, some y => if x - v < v - y then i else i - 1
    | _, _ => i  -- not reachable
  else if i = 0 then 0 else i - 1

/-- `utl::findIndex` (Utilities.C:533-537). -/
def findIndex (iVec : List Int) (iVal : Int) : Int :=
  match iVec.findIdx? (· == iVal) with
  | some i => i
  | none => -1

/-- `utl::findKey` (Utilities.C:520-530): the map is the list of its key-value pairs sorted by key. -/
def findKey (iMap : List (Int × Int)) (iVal : Int) : Int :=
  match iMap.find? (fun p => p.2 == iVal) with
  | some p => p.1
  | none => iVal

/-- `utl::merge` for integers (Utilities.C:540-545). -/
def mergeInt (a1 a2 : List Int) : List Int := a2.foldl (fun a x => if a.contains x then a else a ++ [x]) a1

/-- `utl::merge` for values with keys (Utilities.C:548-554); `none` if `a2` is shorter than `k2` where a value is needed. -/
def mergeVal {R : Type} (k1 : List Int) : List R → List R → List Int → Option (List R)
  | a1, _, [] => some a1
  | a1, a2, k :: ks =>
    if k1.contains k then mergeVal k1 a1 (a2.drop 1) ks
    else match a2 with
      | [] => none
      | x :: xs => mergeVal k1 (a1 ++ [x]) xs ks

/-- `utl::interleave` (Utilities.C:557-568): the loop with `n` output values left; `none` if it leaves the arrays. -/
def interleaveLoop {R : Type} (n1 n2 : Nat) : Nat → Nat → List R → List R → Option (List R)
  | _, 0, _, _ => some []
  | 0, _+1, _, _ => none  -- out of fuel, does not occur for n1 + n2 > 0
  | fuel+1, n+1, v1, v2 =>
    if n1 ≤ v1.length ∧ n2 ≤ v2.length ∧ n1 + n2 ≤ n+1 then
      (interleaveLoop n1 n2 fuel (n+1 - (n1+n2)) (v1.drop n1) (v2.drop n2)).map fun r => v1.take n1 ++ v2.take n2 ++ r
    else none

/-- `utl::interleave`. -/
def interleave {R : Type} (v1 v2 : List R) (n1 n2 : Nat) : Option (List R) :=
  interleaveLoop n1 n2 (v1.length + v2.length) (v1.length + v2.length) v1 v2

/-- `utl::gather` (Utilities.C:392-408): gathers blocks of `nr` values; the number of blocks found to be outside and the values.  `none` when
values outside the input array are read.  Blocks with negative or outside index remain zero. -/
def gatherLoop {R : Type} [Zero R] (nr : Nat) (inp : List R) (off : Nat) : List Int → Option (Nat × List R)
  | [] => some (0, [])
  | k :: ks =>
    match gatherLoop nr inp off ks with
    | none => none
    | some (o, r) =>
      if 0 ≤ k ∧ off + nr * k.toNat < inp.length then
        if off + nr * k.toNat + nr ≤ inp.length then some (o, (inp.drop (off + nr * k.toNat)).take nr ++ r) else none
      else some (if 0 ≤ k then o+1 else o, List.replicate nr 0 ++ r)

/-- `utl::gather` with the last `nskip` indices ignored. -/
def gather {R : Type} [Zero R] (index : List Int) (nr : Nat) (inp : List R) (off nskip : Nat) : Option (Nat × List R) :=
  gatherLoop nr inp off (index.take (index.length - nskip))

/-! ## Renumbering -/

/-- `utl::renumber(num,runner,old2new)` (Utilities.C:363-373): whether the number changed, the new number, runner and mapping. -/
def renumberNew (num runner : Int) (old2new : List (Int × Int)) : Bool × Int × Int × List (Int × Int) :=
  match old2new.lookup num with
  | some v => (decide (num ≠ v), v, runner, old2new)
  | none => (decide (num ≠ runner+1), runner+1, runner+1, old2new ++ [(num, runner+1)])

/-- Renumbering of a sequence of numbers with the above. -/
def renumberAll : List Int → Int → List (Int × Int) → List Int × Int × List (Int × Int)
  | [], runner, m => ([], runner, m)
  | n :: ns, runner, m =>
    let r := renumberNew n runner m
    let t := renumberAll ns r.2.2.1 r.2.2.2
    (r.2.1 :: t.1, t.2)

/-! ## Graded knot vectors -/

/-- The loop generating the graded knots (Utilities.C:142-147). -/
def gradeLoop (alpha : K) : Nat → K → K → List K
  | 0, _, _ => []
  | n+1, x, D => (x + D) :: gradeLoop alpha n (x + D) (D * alpha)

/-- The first interval length (Utilities.C:139-140). -/
def gradeStart (xi1 xi2 alpha : K) (ru : Nat) (centred : Bool) : K :=
  (xi2 - xi1) * (if centred then 1/2 else 1) * (if alpha = 1 then 1 / ((ru + 1 : Nat) : K) else (1 - alpha) / (1 - alpha^(ru+1)))

/-- Geometric grading in `utl::parseKnots` (Utilities.C:121-155) with empty `xi` on input, after parsing; `alpha` is the ratio after the adjustment
for biased grading (`pow` is not modelled), `n` the number given.  `none` if an index is outside the array. -/
def geometricKnots (centred : Bool) (n : Nat) (alpha xi1 xi2 : K) : Option (Bool × List K) :=
  if xi1 < 0 ∨ xi2 ≤ xi1 ∨ xi2 > 1 ∨ n < 1 then some (false, [])
  else
    let ru := if centred = true ∧ n > 1 then n / 2 else n
    let D := gradeStart xi1 xi2 alpha ru centred
    let xi := (if xi1 > 0 then [xi1] else []) ++ gradeLoop alpha ru xi1 D
    let xi? : Option (List K) := if centred then
        let xi := xi ++ [1/2 * (xi1 + xi2)]
        ((List.range ru).mapM fun i => (xi[ru - (i+1)]?).map fun x => xi2 - x + xi1).map fun m => xi ++ m
      else some xi
    xi?.map fun xi => (true, if xi2 < 1 then xi ++ [xi2] else xi)

/-- The polynomial of the C5 grading (Utilities.C:109-118). -/
def c5Poly (X1 X2 y0 dy y : K) : K :=
  let A := (16*X1 + 8*X2 - 24)*dy
  let B := (-40*X1 - 20*X2 + 60)*dy
  let C := (32*X1 + 18*X2 - 50)*dy
  let E := (-8*X1 - 7*X2 + 15)*dy
  let F := X2*dy
  ((((A*y+B)*y+C)*y+E)*y+F)*y+y0

/-- C5 grading in `utl::parseKnots` (Utilities.C:95-120). -/
def c5Knots (nX : Nat) (X1 X2 y0 y1 : K) : Bool × List K :=
  let dy := y1 - y0
  if nX < 2 ∨ nX % 2 = 0 ∨ X1 ≤ 0 ∨ X1 ≥ 1 ∨ X2 ≤ 1 ∨ y0 < 0 ∨ dy ≤ 0 ∨ y1 > 1 then (false, [])
  else
    let h := dy / ((1 + nX : Nat) : K)
    (true, (if y0 > 0 then [y0] else []) ++ (List.range nX).map (fun i : Nat => c5Poly X1 X2 y0 dy (y0 + h + (i : K) * h)) ++
      (if y1 < 1 then [y1] else []))

end IFEM
