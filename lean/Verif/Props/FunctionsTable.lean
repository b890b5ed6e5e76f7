import Verif.Model.Functions
import Mathlib.Tactic.Linarith
import Mathlib.Tactic.Ring
import Mathlib.Tactic.FieldSimp
import Mathlib.Tactic.IntervalCases
import Mathlib.Tactic.NormNum
/-!
# C71 (first part): the piece-wise linear function
-/
namespace IFEM.Fn
noncomputable section
open Classical

/-- The abscissas of a table do not decrease. -/
def Ascending (f : LinearFunc) : Prop :=
  ∀ i j, i ≤ j → j < f.fvals.length → f.px i ≤ f.px j

/-! ## The search -/

theorem lbLoop_spec (tab : List (ℝ × ℝ)) (x : ℝ)
    (hs : ∀ i j, i ≤ j → j < tab.length → (tab.getD i (0,0)).1 ≤ (tab.getD j (0,0)).1) :
    ∀ (fuel first len : ℕ), len ≤ fuel → first + len ≤ tab.length →
      (∀ i < first, (tab.getD i (0,0)).1 < x) →
      (∀ i, first + len ≤ i → i < tab.length → x ≤ (tab.getD i (0,0)).1) →
      lbLoop tab x fuel first len ≤ tab.length ∧
      (∀ i < lbLoop tab x fuel first len, (tab.getD i (0,0)).1 < x) ∧
      (∀ i, lbLoop tab x fuel first len ≤ i → i < tab.length → x ≤ (tab.getD i (0,0)).1)
  | 0, first, len, hf, hl, h1, h2 => by
    have : len = 0 := by omega
    subst this
    exact ⟨by simpa [lbLoop] using hl, h1, h2⟩
  | fuel+1, first, len, hf, hl, h1, h2 => by
    rw [lbLoop]
    by_cases h0 : len = 0
    · rw [if_pos h0]; subst h0; exact ⟨by simpa using hl, h1, h2⟩
    · rw [if_neg h0]
      by_cases hc : (tab.getD (first + len/2) (0,0)).1 < x
      · rw [if_pos hc]
        refine lbLoop_spec tab x hs fuel _ _ (by omega) (by omega) ?_ ?_
        · intro i hi
          exact lt_of_le_of_lt (hs i (first + len/2) (by omega) (by omega)) hc
        · intro i hi hin
          exact h2 i (by omega) hin
      · rw [if_neg hc]
        refine lbLoop_spec tab x hs fuel _ _ (by omega) (by omega) h1 ?_
        intro i hi hin
        by_cases hi2 : first + len ≤ i
        · exact h2 i hi2 hin
        · exact le_trans (not_lt.1 hc) (hs _ i (by omega) hin)

theorem locate_spec (f : LinearFunc) (hs : Ascending f) (h2 : 2 ≤ f.fvals.length) (x : ℝ) :
    f.locate x ≤ f.fvals.length ∧ (∀ i < f.locate x, f.px i < x) ∧
      (∀ i, f.locate x ≤ i → i < f.fvals.length → x ≤ f.px i) := by
  have := lbLoop_spec f.fvals x hs f.fvals.length 0 f.fvals.length le_rfl (by omega)
    (by intro i hi; omega) (by intro i hi hin; omega)
  unfold LinearFunc.locate
  rw [if_neg (by omega)]
  exact this

theorem locate_eq (f : LinearFunc) (hs : Ascending f) (h2 : 2 ≤ f.fvals.length) (x : ℝ) (r : ℕ)
    (hr : r ≤ f.fvals.length) (h1 : 0 < r → f.px (r-1) < x)
    (h3 : r < f.fvals.length → x ≤ f.px r) : f.locate x = r := by
  obtain ⟨ha, hb, hc⟩ := locate_spec f hs h2 x
  rcases Nat.lt_trichotomy (f.locate x) r with h | h | h
  · exfalso
    have := hc (r-1) (by omega) (by omega)
    have := h1 (by omega)
    linarith
  · exact h
  · exfalso
    have := hb r h
    have := h3 (by omega)
    linarith

theorem locate_short (f : LinearFunc) (h : f.fvals.length < 2) (x : ℝ) : f.locate x = 0 := by
  unfold LinearFunc.locate; rw [if_pos h]

theorem locate_low (f : LinearFunc) (hs : Ascending f) (x : ℝ) (h : x ≤ f.px 0) :
    f.locate x = 0 := by
  by_cases h2 : f.fvals.length < 2
  · exact locate_short f h2 x
  · exact locate_eq f hs (by omega) x 0 (by omega) (by omega) (fun _ => h)

/-! ## The values -/

/-- **C71** Without a table the function is `scale*x`. -/
theorem C71_linear (s x : ℝ) : (LinearFunc.mk [] s).evaluate x = s*x ∧
    (LinearFunc.mk [] s).deriv x = s := by
  simp [LinearFunc.evaluate, LinearFunc.deriv]

/-- **C71** At and below the first abscissa the value is the first one, beyond the last abscissa
the last one. -/
theorem C71_table_outside (f : LinearFunc) (hne : f.fvals ≠ []) (hs : Ascending f) (x : ℝ) :
    (x ≤ f.px 0 → f.evaluate x = f.scale*f.pf 0) ∧
    (2 ≤ f.fvals.length → f.px (f.fvals.length - 1) < x →
      f.evaluate x = f.scale*f.pf (f.fvals.length - 1)) ∧
    (f.fvals.length = 1 → f.evaluate x = f.scale*f.pf 0) := by
  refine ⟨fun h => ?_, fun h2 h => ?_, fun h => ?_⟩
  · unfold LinearFunc.evaluate
    rw [if_neg hne, if_pos (locate_low f hs x h)]
  · unfold LinearFunc.evaluate
    have := locate_eq f hs h2 x f.fvals.length le_rfl (fun _ => h) (by omega)
    rw [if_neg hne, this, if_neg (by omega), if_pos le_rfl]
  · unfold LinearFunc.evaluate
    rw [if_neg hne, if_pos (locate_short f (by omega) x)]

/-- **C71** Between two neighbouring abscissas the value is on the straight line through the two
points, and the division is by a positive number. -/
theorem C71_table_between (f : LinearFunc) (hs : Ascending f) (i : ℕ)
    (hi : i + 1 < f.fvals.length) (x : ℝ) (h1 : f.px i < x) (h2 : x ≤ f.px (i+1)) :
    0 < f.px (i+1) - f.px i ∧
    f.evaluate x = f.scale*(f.pf i + (f.pf (i+1) - f.pf i)*((x - f.px i)/(f.px (i+1) - f.px i))) ∧
    f.deriv x = f.scale*((f.pf (i+1) - f.pf i)/(f.px (i+1) - f.px i)) := by
  have hl := locate_eq f hs (by omega) x (i+1) (by omega) (fun _ => by simpa using h1)
    (fun _ => h2)
  have hne : f.fvals ≠ [] := by intro h; rw [h] at hi; simp at hi
  refine ⟨by linarith, ?_, ?_⟩
  · unfold LinearFunc.evaluate
    rw [if_neg hne, hl, if_neg (by omega), if_neg (by omega), Nat.add_sub_cancel, mul_div_assoc]
  · unfold LinearFunc.deriv
    rw [if_neg hne, hl, if_neg (by omega), Nat.add_sub_cancel, mul_div_assoc]

/-- **C71** A strictly increasing table is interpolated: at each abscissa the function has the
value of the table. -/
theorem C71_table_interpolates (f : LinearFunc) (hs : Ascending f) (i : ℕ)
    (hi : i < f.fvals.length) (hlt : ∀ k < i, f.px k < f.px i) :
    f.evaluate (f.px i) = f.scale*f.pf i := by
  rcases Nat.eq_zero_or_pos i with h0 | h0
  · subst h0
    exact (C71_table_outside f (by intro h; rw [h] at hi; simp at hi) hs _).1 le_rfl
  · obtain ⟨k, rfl⟩ : ∃ k, i = k+1 := ⟨i-1, by omega⟩
    have hk := hlt k (by omega)
    obtain ⟨h1, h2, _⟩ := C71_table_between f hs k hi (f.px (k+1)) hk le_rfl
    rw [h2, div_self h1.ne']
    ring

/-- Every argument of a table with at least two points is below the first abscissa, beyond the
last, or between two neighbours. -/
theorem table_cases (f : LinearFunc) (hs : Ascending f) (h2 : 2 ≤ f.fvals.length) (x : ℝ) :
    x ≤ f.px 0 ∨ f.px (f.fvals.length - 1) < x ∨
      ∃ i, i + 1 < f.fvals.length ∧ f.px i < x ∧ x ≤ f.px (i+1) := by
  obtain ⟨ha, hb, hc⟩ := locate_spec f hs h2 x
  rcases Nat.eq_zero_or_pos (f.locate x) with h | h
  · left; exact hc 0 (by omega) (by omega)
  · by_cases hn : f.locate x = f.fvals.length
    · right; left; exact hb _ (by omega)
    · right; right
      refine ⟨f.locate x - 1, by omega, hb _ (by omega), ?_⟩
      have := hc (f.locate x) le_rfl (by omega)
      rwa [Nat.sub_add_cancel h]

/-- **C71** The values of a table with unit scale stay within any bounds its points have. -/
theorem C71_table_bounds (f : LinearFunc) (hne : f.fvals ≠ []) (hs : Ascending f) (m M : ℝ)
    (hb : ∀ i < f.fvals.length, m ≤ f.pf i ∧ f.pf i ≤ M) (x : ℝ) :
    ∃ y, f.evaluate x = f.scale*y ∧ m ≤ y ∧ y ≤ M := by
  have hpos : 0 < f.fvals.length := List.length_pos_of_ne_nil hne
  obtain ⟨o1, o2, o3⟩ := C71_table_outside f hne hs x
  by_cases h2 : 2 ≤ f.fvals.length
  · rcases table_cases f hs h2 x with h | h | ⟨i, hi, ha, hc⟩
    · exact ⟨_, o1 h, hb 0 hpos⟩
    · exact ⟨_, o2 h2 h, hb _ (by omega)⟩
    · obtain ⟨hp, he, _⟩ := C71_table_between f hs i hi x ha hc
      refine ⟨_, he, ?_⟩
      have ht0 : 0 ≤ (x - f.px i)/(f.px (i+1) - f.px i) := div_nonneg (by linarith) hp.le
      have ht1 : (x - f.px i)/(f.px (i+1) - f.px i) ≤ 1 := by
        rw [div_le_one hp]; linarith
      obtain ⟨a1, a2⟩ := hb i (by omega)
      obtain ⟨b1, b2⟩ := hb (i+1) hi
      generalize (x - f.px i)/(f.px (i+1) - f.px i) = t at ht0 ht1
      constructor
      · nlinarith
      · nlinarith
  · exact ⟨_, o3 (by omega), hb 0 hpos⟩

/-- **C71** Away from the abscissas the reported derivative is the derivative of the function. -/
theorem C71_table_derivative (f : LinearFunc) (hs : Ascending f) (x : ℝ)
    (hx : ∀ i < f.fvals.length, x ≠ f.px i) : HasDerivAt f.evaluate (f.deriv x) x := by
  by_cases hne : f.fvals = []
  · have h1 : f.evaluate = fun y => f.scale*y := by
      funext y; unfold LinearFunc.evaluate; rw [if_pos hne]
    have h2 : f.deriv x = f.scale := by unfold LinearFunc.deriv; rw [if_pos hne]
    rw [h1, h2]
    simpa using (hasDerivAt_id x).const_mul f.scale
  · have hpos : 0 < f.fvals.length := List.length_pos_of_ne_nil hne
    by_cases h2 : 2 ≤ f.fvals.length
    · rcases table_cases f hs h2 x with h | h | ⟨i, hi, ha, hc⟩
      · have hlt : x < f.px 0 := lt_of_le_of_ne h (hx 0 hpos)
        have hd : f.deriv x = 0 := by
          unfold LinearFunc.deriv
          rw [if_neg hne, if_pos (Or.inl (locate_low f hs x h))]
        rw [hd]
        refine (hasDerivAt_const x (f.scale*f.pf 0)).congr_of_eventuallyEq ?_
        filter_upwards [Iio_mem_nhds hlt] with y hy
        exact (C71_table_outside f hne hs y).1 (le_of_lt hy)
      · have hd : f.deriv x = 0 := by
          unfold LinearFunc.deriv
          rw [if_neg hne, if_pos (Or.inr (by
            rw [locate_eq f hs h2 x f.fvals.length le_rfl (fun _ => h) (by omega)]))]
        rw [hd]
        refine (hasDerivAt_const x (f.scale*f.pf (f.fvals.length - 1))).congr_of_eventuallyEq ?_
        filter_upwards [Ioi_mem_nhds h] with y hy
        exact (C71_table_outside f hne hs y).2.1 h2 hy
      · have hlt : x < f.px (i+1) := lt_of_le_of_ne hc (hx _ hi)
        obtain ⟨hp, _, hd⟩ := C71_table_between f hs i hi x ha hc
        rw [hd]
        have base : HasDerivAt (fun y => f.scale*(f.pf i + (f.pf (i+1) - f.pf i)*
            ((y - f.px i)/(f.px (i+1) - f.px i))))
            (f.scale*((f.pf (i+1) - f.pf i)/(f.px (i+1) - f.px i))) x := by
          have e := ((((hasDerivAt_id x).sub_const (f.px i)).div_const
            (f.px (i+1) - f.px i)).const_mul (f.pf (i+1) - f.pf i)).const_add (f.pf i)
          have e2 := e.const_mul f.scale
          refine e2.congr_deriv ?_
          ring
        refine base.congr_of_eventuallyEq ?_
        filter_upwards [Ioo_mem_nhds ha hlt] with y hy
        exact (C71_table_between f hs i hi y hy.1 (le_of_lt hy.2)).2.1
    · have hd : f.deriv x = 0 := by
        unfold LinearFunc.deriv
        rw [if_neg hne, if_pos (Or.inl (locate_short f (by omega) x))]
      rw [hd]
      have h1 : f.evaluate = fun _ => f.scale*f.pf 0 := by
        funext y; exact (C71_table_outside f hne hs y).2.2 (by omega)
      rw [h1]; exact hasDerivAt_const x _

/-- Away from the abscissas the reported derivative does not change. -/
theorem table_deriv_local (f : LinearFunc) (hs : Ascending f) (x : ℝ)
    (hx : ∀ i < f.fvals.length, x ≠ f.px i) : ∀ᶠ y in nhds x, f.deriv y = f.deriv x := by
  have hloc : ∀ᶠ y in nhds x, f.locate y = f.locate x := by
    by_cases h2 : 2 ≤ f.fvals.length
    · rcases table_cases f hs h2 x with h | h | ⟨i, hi, ha, hc⟩
      · have hlt : x < f.px 0 := lt_of_le_of_ne h (hx 0 (by omega))
        filter_upwards [Iio_mem_nhds hlt] with y hy
        rw [locate_low f hs x h, locate_low f hs y (le_of_lt hy)]
      · filter_upwards [Ioi_mem_nhds h] with y hy
        rw [locate_eq f hs h2 x f.fvals.length le_rfl (fun _ => h) (by omega),
          locate_eq f hs h2 y f.fvals.length le_rfl (fun _ => hy) (by omega)]
      · have hlt : x < f.px (i+1) := lt_of_le_of_ne hc (hx _ hi)
        filter_upwards [Ioo_mem_nhds ha hlt] with y hy
        rw [locate_eq f hs h2 x (i+1) (by omega) (fun _ => by simpa using ha) (fun _ => hc),
          locate_eq f hs h2 y (i+1) (by omega) (fun _ => by simpa using hy.1)
            (fun _ => le_of_lt hy.2)]
    · exact Filter.Eventually.of_forall (fun y => by
        rw [locate_short f (by omega) x, locate_short f (by omega) y])
  filter_upwards [hloc] with y hy
  unfold LinearFunc.deriv
  rw [hy]

/-- **C71** A vector-valued table is the scalar one in each component. -/
theorem C71_table_vector (f : LinVecFunc) (x : ℝ) (i : Fin 3) :
    f.evaluate x i = if f.vvals = [] then 0 else
      (LinearFunc.mk (f.vvals.map (fun p => (p.1, p.2 i))) 1).evaluate x := by
  by_cases h0 : f.vvals = []
  · simp [LinVecFunc.evaluate, h0]
  rw [if_neg h0]
  have hlb : ∀ fuel first len, lbLoop (f.vvals.map (fun p => (p.1, (0:ℝ)))) x fuel first len
      = lbLoop (f.vvals.map (fun p => (p.1, p.2 i))) x fuel first len := by
    intro fuel
    induction fuel with
    | zero => intros; rfl
    | succ n ih =>
      intro first len
      have e : ∀ k, ((f.vvals.map (fun p => (p.1, (0:ℝ)))).getD k (0,0)).1
          = ((f.vvals.map (fun p => (p.1, p.2 i))).getD k (0,0)).1 := by
        intro k
        by_cases hk : k < f.vvals.length
        · simp [List.getD, hk]
        · simp [List.getD, hk]
      simp only [lbLoop, e, ih]
  have hloc : f.find x = (LinearFunc.mk (f.vvals.map (fun p => (p.1, p.2 i))) 1).locate x := by
    unfold LinVecFunc.find LinearFunc.locate
    simp only [List.length_map, hlb]
    by_cases h : f.vvals.length > 1
    · rw [if_pos h, if_neg (by omega)]
    · rw [if_neg h, if_pos (by omega)]
  have hpx : ∀ k, f.px k = (LinearFunc.mk (f.vvals.map (fun p => (p.1, p.2 i))) 1).px k := by
    intro k; unfold LinVecFunc.px LinearFunc.px
    by_cases hk : k < f.vvals.length
    · simp [List.getD, hk]
    · simp [List.getD, hk]
  have hpf : ∀ k, f.pf k i = (LinearFunc.mk (f.vvals.map (fun p => (p.1, p.2 i))) 1).pf k := by
    intro k; unfold LinVecFunc.pf LinearFunc.pf
    by_cases hk : k < f.vvals.length
    · simp [List.getD, hk]
    · simp [List.getD, hk]
  unfold LinVecFunc.evaluate LinearFunc.evaluate
  simp only [h0, if_false, List.map_eq_nil_iff, ← hloc, hpx, hpf, one_mul, List.length_map,
    mul_div_assoc]

/-! ## Reading a table -/

/-- **C71** Rows with non-decreasing abscissas are taken over one by one, and give an ascending
table. -/
theorem C71_table_read (rows : List (List ℝ)) (pts : List (ℝ × ℝ)) (c : ℤ) (s : ℝ)
    (hr : rows.map (rowPoint c) = pts.map some)
    (hs : pts.Pairwise (fun p q => p.1 ≤ q.1)) :
    LinearFunc.ofRows rows c s = some ⟨pts, s⟩ ∧ Ascending ⟨pts, s⟩ := by
  have key : ∀ (rows : List (List ℝ)) (pts acc : List (ℝ × ℝ)),
      rows.map (rowPoint c) = pts.map some → (acc ++ pts).Pairwise (fun p q => p.1 ≤ q.1) →
      readRows c rows acc = some (acc ++ pts) := by
    intro rows
    induction rows with
    | nil =>
      intro pts acc h _
      cases pts with
      | nil => simp [readRows]
      | cons p ps => simp at h
    | cons r rs ih =>
      intro pts acc h hp
      cases pts with
      | nil => simp at h
      | cons p ps =>
        simp only [List.map_cons, List.cons.injEq] at h
        have hadd : addPoint acc p.1 p.2 = (acc ++ [p], true) := by
          unfold addPoint
          cases hg : acc.getLast? with
          | none => rfl
          | some b =>
            have hb : b ∈ acc := List.mem_of_getLast? hg
            have : b.1 ≤ p.1 := (List.pairwise_append.1 hp).2.2 b hb p (by simp)
            simp [this]
        rw [readRows, h.1]
        simp only [hadd, if_true]
        have := ih ps (acc ++ [p]) h.2 (by simpa using hp)
        simpa using this
  constructor
  · unfold LinearFunc.ofRows
    rw [key rows pts [] hr (by simpa using hs)]
    simp
  · intro i j hij hj
    rcases Nat.eq_or_lt_of_le hij with h | h
    · subst h; exact le_rfl
    · have hj' : j < pts.length := hj
      have := (List.pairwise_iff_getElem.1 hs) i j (by omega) hj' h
      unfold LinearFunc.px
      simp only [List.getD, List.getElem?_eq_getElem hj',
        List.getElem?_eq_getElem (show i < pts.length by omega), Option.getD_some]
      exact this

/-- **C71** The points of a table file: with the column number `c ≥ 2`, the first column and
column `c`; with a column number below two, the second column is the abscissa and the first the
value. -/
theorem C71_table_columns (rows : List (List ℝ)) (c : ℤ) (s : ℝ) (pts : List (ℝ × ℝ))
    (hlen : ∀ r ∈ rows, 2 ≤ r.length ∧ c ≤ (r.length : ℤ))
    (hp : pts = rows.map (fun r => if c < 2 then (r.getD 1 0, r.getD 0 0) else (r.getD 0 0, r.getD (c.toNat - 1) 0)))
    (hs : pts.Pairwise (fun p q => p.1 ≤ q.1)) :
    LinearFunc.ofRows rows c s = some ⟨pts, s⟩ := by
  refine (C71_table_read rows pts c s ?_ hs).1
  rw [hp, List.map_map]
  refine List.map_congr_left fun r hr => ?_
  obtain ⟨h2, hc⟩ := hlen r hr
  match r, h2, hc with
  | x :: v :: rest, _, hc =>
    unfold rowPoint
    by_cases h : c < 2
    · simp [h]
    · simp only [Function.comp, if_neg h]
      have : c.toNat - 1 = (c.toNat - 2) + 1 := by omega
      rw [this]
      have hm : min (c.toNat - 2) rest.length = c.toNat - 2 := by
        simp only [List.length_cons] at hc
        omega
      rw [hm]
      simp

/-- **C71** Reading stops at the first row whose abscissa drops below the previous one by more
than the tolerance: the rest of the rows has no effect. -/
theorem C71_table_stops (tab : List (ℝ × ℝ)) (b : ℝ × ℝ) (c : ℤ) (r : List ℝ) (p : ℝ × ℝ)
    (rs : List (List ℝ)) (hr : rowPoint c r = some p) (hlt : p.1 < b.1)
    (htol : zTol*b.1 ≤ b.1 - p.1) :
    readRows c (r :: rs) (tab ++ [b]) = some (tab ++ [b]) := by
  rw [readRows, hr]
  simp only
  have : addPoint (tab ++ [b]) p.1 p.2 = (tab ++ [b], false) := by
    unfold addPoint
    simp only [List.getLast?_append, List.getLast?_singleton, Option.some_or]
    rw [if_neg (by linarith), if_neg (by linarith)]
  rw [this]; simp

/-- **C71** The tolerance can spoil the order: three rows of which the last lies slightly below
two equal ones give a table that is not ascending (finding F112). -/
theorem C71_table_tolerance_counterexample :
    ∃ f, LinearFunc.ofRows [[1, 0], [1, 5], [1 - 1/10^13, 7]] 2 1 = some f ∧ ¬ Ascending f := by
  refine ⟨⟨[(1,0), ((1 + (1 - 1/10^13))/2, 5), ((1 + (1 - 1/10^13))/2, 7)], 1⟩, ?_, ?_⟩
  · have h1 : addPoint [] 1 0 = ([((1:ℝ),(0:ℝ))], true) := by simp [addPoint]
    have h2 : addPoint [((1:ℝ),(0:ℝ))] 1 5 = ([((1:ℝ),(0:ℝ)),(1,5)], true) := by simp [addPoint]
    have h3 : addPoint [((1:ℝ),(0:ℝ)),(1,5)] (1 - 1/10^13) 7 =
        ([((1:ℝ),(0:ℝ)), ((1 + (1 - 1/10^13))/2, 5), ((1 + (1 - 1/10^13))/2, 7)], true) := by
      unfold addPoint
      simp only [List.getLast?_cons_cons, List.getLast?_singleton]
      rw [if_neg (by norm_num), if_pos (by unfold zTol; norm_num)]
      simp
    simp [LinearFunc.ofRows, readRows, rowPoint, h1, h2, h3, -one_div]
  · intro h
    have := h 0 1 (by omega) (by simp)
    simp [LinearFunc.px] at this
    norm_num at this

/-- Non-vacuity: a table with a jump, its values on both sides and its slope. -/
theorem C71_table_example :
    let f : LinearFunc := ⟨[(0,1), (2,5), (2,7), (4,7)], 3⟩
    Ascending f ∧ f.evaluate 1 = 9 ∧ f.evaluate 2 = 15 ∧ f.evaluate 3 = 21 ∧ f.deriv 1 = 6 ∧
      f.evaluate (-1) = 3 ∧ f.evaluate 10 = 21 ∧ f.deriv 10 = 0 := by
  intro f
  have hp0 : f.px 0 = 0 := rfl
  have hp1 : f.px 1 = 2 := rfl
  have hp2 : f.px 2 = 2 := rfl
  have hp3 : f.px 3 = 4 := rfl
  have hf0 : f.pf 0 = 1 := rfl
  have hf1 : f.pf 1 = 5 := rfl
  have hf2 : f.pf 2 = 7 := rfl
  have hf3 : f.pf 3 = 7 := rfl
  have hl : f.fvals.length = 4 := rfl
  have hsc : f.scale = 3 := rfl
  have ha : Ascending f := by
    intro i j hij hj
    have hj4 : j < 4 := hj
    have hi4 : i < 4 := by omega
    interval_cases j <;> interval_cases i <;> first
      | omega
      | (simp only [hp0, hp1, hp2, hp3]; norm_num)
  have b0 := fun x => C71_table_between f ha 0 (by rw [hl]; norm_num) x
  have b2 := fun x => C71_table_between f ha 2 (by rw [hl]; norm_num) x
  have hn : f.fvals ≠ [] := by simp [f]
  have o := fun x => C71_table_outside f hn ha x
  have hloc : f.locate 10 = 4 := locate_eq f ha (by rw [hl]; norm_num) 10 4 (by rw [hl])
    (fun _ => by show f.px 3 < 10; rw [hp3]; norm_num) (by rw [hl]; intro h; omega)
  simp only [zero_add, hp0, hp1, hf0, hf1, hsc] at b0
  simp only [hp2, hf2, hsc, show 2+1 = 3 from rfl, hp3, hf3] at b2
  simp only [hp0, hf0, hsc, hl, show 4-1 = 3 from rfl, hp3, hf3] at o
  refine ⟨ha, ?_, ?_, ?_, ?_, ?_, ?_, ?_⟩
  · rw [(b0 1 (by norm_num) (by norm_num)).2.1]; norm_num
  · rw [(b0 2 (by norm_num) (by norm_num)).2.1]; norm_num
  · rw [(b2 3 (by norm_num) (by norm_num)).2.1]; norm_num
  · rw [(b0 1 (by norm_num) (by norm_num)).2.2]; norm_num
  · rw [(o (-1)).1 (by norm_num)]; norm_num
  · rw [(o 10).2.1 (by norm_num) (by norm_num)]; norm_num
  · unfold LinearFunc.deriv; rw [if_neg hn, hloc, if_pos (Or.inr (by rw [hl]))]

end
end IFEM.Fn
