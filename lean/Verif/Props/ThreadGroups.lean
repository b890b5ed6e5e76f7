import Mathlib.Data.Nat.ModEq
import Verif.Lemmas.ThreadStrips
/-!
# C23, C24: threading groups of structured patches
-/
namespace IFEM.Props
open IFEM.Spec IFEM.Threads

/-! ## C23: every element exactly once -/

theorem part_mono {G : Groups} {nel : Nat} {p q : Int → Prop} (h : IsPartition G nel p) (hq : ∀ e, q e → p e) : IsPartition G nel q :=
  ⟨h.nodup, h.range, fun e he => h.cover e (hq e he)⟩

theorem real2_pos {dir : StripDir} {el1 el2 : List Bool} {e : Int} (h : RealElm2 el1 el2 e) :
    0 ≤ e ∧ e < (el1.length*el2.length : Nat) ∧ (spans2 dir el1 el2)[pos2 dir el1.length e]? = some true := by
  obtain ⟨i, j, hat, h1, h2⟩ := h
  obtain ⟨q1, q2, q3, q4⟩ := at2_pos hat
  refine ⟨q3, q4, ?_⟩
  unfold spans2 pos2
  by_cases hd : dir = .U
  · rw [if_pos hd, if_pos hd, q1]; exact h1
  · rw [if_neg hd, if_neg hd, q2]; exact h2

theorem real3_pos {dir : StripDir} {el1 el2 el3 : List Bool} {e : Int} (h : RealElm3 el1 el2 el3 e) :
    0 ≤ e ∧ e < (el1.length*el2.length*el3.length : Nat) ∧ (spans3 dir el1 el2 el3)[pos3 dir el1.length el2.length e]? = some true := by
  obtain ⟨i, j, k, hat, h1, h2, h3⟩ := h
  obtain ⟨q1, q2, q3, q4, q5⟩ := at3_pos hat
  refine ⟨q4, q5, ?_⟩
  unfold spans3 pos3
  split_ifs
  · rw [q1]; exact h1
  · rw [q2]; exact h2
  · rw [q3]; exact h3

/-- **C23** (two-dimensional patches with possible zero-length knot spans). For any number of threads, any pattern of zero spans, any minimum strip size and
any strip direction, all elements of non-zero size are assigned exactly once, and only existing elements are assigned. -/
theorem C23_spline_2d {threads : Nat} (hT : 1 ≤ threads) {dir : StripDir} (hd : dir = .ANY ∨ dir = .U ∨ dir = .V) (el1 el2 : List Bool) (p1 p2 : Nat) :
    ∃ G, calcGroups2z threads (.new dir) el1 el2 p1 p2 = some G ∧ IsPartition G (el1.length*el2.length) (RealElm2 el1 el2) := by
  obtain ⟨G, dir', e, _, _, ok⟩ := calcGroups2z_ok hT (G0 := .new dir) ⟨rfl, rfl⟩ (by simpa [Groups.new] using hd) el1 el2 p1 p2
  exact ⟨G, e, part_mono ok.part fun _ h => real2_pos h⟩

/-- **C23** (three-dimensional patches with possible zero-length knot spans). -/
theorem C23_spline_3d {threads : Nat} (hT : 1 ≤ threads) {dir : StripDir} (hd : dir ≠ .NONE) (el1 el2 el3 : List Bool) (p1 p2 p3 : Nat) :
    ∃ G, calcGroups3z threads (.new dir) el1 el2 el3 p1 p2 p3 = some G ∧
      IsPartition G (el1.length*el2.length*el3.length) (RealElm3 el1 el2 el3) := by
  obtain ⟨G, dir', e, _, _, ok⟩ := calcGroups3z_ok hT (G0 := .new dir) ⟨rfl, rfl⟩ (by simpa [Groups.new] using hd) el1 el2 el3 p1 p2 p3
  exact ⟨G, e, part_mono ok.part fun _ h => real3_pos h⟩

/-- **C23** (two-dimensional grids without zero spans): all elements are assigned exactly once. -/
theorem C23_plain_2d {threads : Nat} (hT : 1 ≤ threads) {dir : StripDir} (hd : dir = .ANY ∨ dir = .U ∨ dir = .V) (n1 n2 m : Nat) :
    ∃ G, calcGroups2 threads (.new dir) n1 n2 m = some G ∧ IsPartition G (n1*n2) (fun e => 0 ≤ e ∧ e < (n1*n2 : Nat)) := by
  obtain ⟨G, e, ok⟩ := C23_spline_2d hT hd (List.replicate n1 true) (List.replicate n2 true) m m
  simp only [List.length_replicate] at ok
  refine ⟨G, (calcGroups2_eq hT _ _ _ _).trans e, part_mono ok ?_⟩
  rintro e ⟨h0, h1⟩
  have hat := at2_exists h0 h1
  refine ⟨_, _, by simpa using hat, ?_, ?_⟩
  · simp [hat.1]
  · simp [hat.2.1]

/-- **C23** (three-dimensional grids without zero spans): all elements are assigned exactly once. -/
theorem C23_plain_3d {threads : Nat} (hT : 1 ≤ threads) {dir : StripDir} (hd : dir ≠ .NONE) (n1 n2 n3 m : Nat) :
    ∃ G, calcGroups3 threads (.new dir) n1 n2 n3 m = some G ∧ IsPartition G (n1*n2*n3) (fun e => 0 ≤ e ∧ e < (n1*n2*n3 : Nat)) := by
  obtain ⟨G, e, ok⟩ := C23_spline_3d hT hd (List.replicate n1 true) (List.replicate n2 true) (List.replicate n3 true) m m m
  simp only [List.length_replicate] at ok
  refine ⟨G, (calcGroups3_eq hT _ _ _ _ _).trans e, part_mono ok ?_⟩
  rintro e ⟨h0, h1⟩
  have hat := at3_exists h0 h1
  refine ⟨_, _, _, by simpa using hat, ?_, ?_, ?_⟩
  · simp [hat.1]
  · simp [hat.2.1]
  · simp [hat.2.2.1]

/-- **C23** (no multi-threading). All elements, in one thread. -/
theorem C23_one_group (G : Groups) (nel : Nat) :
    IsPartition (oneGroup G nel) nel (fun e => 0 ≤ e ∧ e < nel) ∧ ∀ e e', ¬ Concurrent (oneGroup G nel) e e' :=
  ⟨oneGroup_partition G nel, oneGroup_concurrent G nel⟩

theorem stripe_fresh : ∀ (elms : List Int), stripeLoop (vresize [] elms.length []) elms = elms.map fun e => [e]
  | [] => rfl
  | e :: l => by
    have ih := stripe_fresh l
    unfold stripeLoop vresize at *
    simp only [List.take_nil, List.length_nil, Nat.sub_zero, List.nil_append, List.length_cons, List.replicate_succ, List.zipWith_cons_cons,
      List.map_cons, List.replicate_one] at ih ⊢
    rw [ih]
    rfl

theorem flatten_single (l : List Int) : (l.map fun e => [e]).flatten = l := by
  induction l with
  | nil => rfl
  | cons a l ih => simp [ih]

/-- **C23** (thread-safe integrands). Every element is assigned to its own thread. -/
theorem C23_one_stripe (nel : Nat) (dir : StripDir) : IsPartition (oneStripe (.new dir) nel) nel (fun e => 0 ≤ e ∧ e < nel) := by
  have h : groupElms (oneStripe (.new dir) nel) = groupElms (oneGroup (.new dir) nel) := by
    have := stripe_fresh ((List.range nel).map Int.ofNat)
    simp only [List.length_map, List.length_range] at this
    simp only [groupElms, oneStripe, Groups.new, oneGroup, this, flatten_single]
    simp
  have hp := oneGroup_partition (.new dir) nel
  exact ⟨h ▸ hp.nodup, h ▸ hp.range, h ▸ hp.cover⟩

/-- **C23** (thread-safe integrands, subset of elements). With a list of elements, these are assigned, in one thread, or each in its own; a list starting with a
negative number assigns nothing. -/
theorem C23_subset (nel : Nat) (dir : StripDir) {elms : List Int} (hne : elms ≠ []) :
    (0 ≤ elms.head hne → groupElms (oneGroupOf (.new dir) nel elms) = elms ∧ groupElms (oneStripeOf (.new dir) nel elms) = elms) ∧
    (elms.head hne < 0 → groupElms (oneGroupOf (.new dir) nel elms) = [] ∧ groupElms (oneStripeOf (.new dir) nel elms) = []) := by
  cases elms with
  | nil => exact absurd rfl hne
  | cons e l =>
    have hs := stripe_fresh (e :: l)
    constructor
    · intro h
      have h : 0 ≤ e := h
      constructor
      · simp [groupElms, oneGroupOf, Groups.new, vresize, h]
      · simp only [groupElms, oneStripeOf, Groups.new, if_pos h, hs, flatten_single]; simp
    · intro h
      have h : e < 0 := h
      constructor
      · simp [groupElms, oneGroupOf, Groups.new, vresize, h]
      · simp [groupElms, oneStripeOf, Groups.new, vresize, not_le.mpr h]

theorem filter_all (G : Groups) (elms : List Int) : groupElms (filterGroups G elms) = (groupElms G).filter fun e => elms.contains e := by
  simp only [groupElms, filterGroups, List.filter_append, List.filter_flatten]

/-- **C23** (restriction to a subset of the elements): of the assigned elements, those in the list are kept, and two kept elements can be processed
concurrently only if they could before. -/
theorem C23_filter {G : Groups} {nel : Nat} {real : Int → Prop} (h : IsPartition G nel real) (elms : List Int) :
    IsPartition (filterGroups G elms) nel (fun e => real e ∧ e ∈ elms) ∧ (∀ e ∈ groupElms (filterGroups G elms), e ∈ elms) ∧
    ∀ e e', Concurrent (filterGroups G elms) e e' → Concurrent G e e' := by
  refine ⟨⟨?_, ?_, ?_⟩, ?_, ?_⟩
  · rw [filter_all]; exact h.nodup.filter _
  · intro e he
    rw [filter_all] at he
    exact h.range e (List.mem_filter.mp he).1
  · rintro e ⟨h1, h2⟩
    rw [filter_all]
    exact List.mem_filter.mpr ⟨h.cover e h1, by simpa using h2⟩
  · intro e he
    rw [filter_all] at he
    simpa using (List.mem_filter.mp he).2
  · rintro e e' ⟨grp, hg, t, t', hne, ⟨l, hl, he⟩, ⟨l', hl', he'⟩⟩
    have key : ∀ L : List (List Int), grp = L.map (fun l => l.filter fun e => elms.contains e) →
        ∃ k k', L[t]? = some k ∧ L[t']? = some k' ∧ e ∈ k ∧ e' ∈ k' := by
      rintro L rfl
      rw [List.getElem?_map] at hl hl'
      obtain ⟨k, hk, rfl⟩ := Option.map_eq_some_iff.mp hl
      obtain ⟨k', hk', rfl⟩ := Option.map_eq_some_iff.mp hl'
      exact ⟨k, k', hk, hk', (List.mem_filter.mp he).1, (List.mem_filter.mp he').1⟩
    rcases hg with hg | hg
    · obtain ⟨k, k', q1, q2, q3, q4⟩ := key G.tg0 hg
      exact ⟨_, Or.inl rfl, t, t', hne, ⟨k, q1, q3⟩, ⟨k', q2, q4⟩⟩
    · obtain ⟨k, k', q1, q2, q3, q4⟩ := key G.tg1 hg
      exact ⟨_, Or.inr rfl, t, t', hne, ⟨k, q1, q3⟩, ⟨k', q2, q4⟩⟩

/-! ## C24: no common basis function -/

theorem spline_not_share {elz : List Bool} {m x y q k : Nat} (h : Sep elz m x y) (hq : q ≤ m) (hk : k ≤ q) (hy : y < elz.length) :
    ¬ (splineDir elz.length q k).share x y := by
  obtain ⟨h1, h2, h3⟩ := h
  have b1 := between_le elz (x+1) y
  have b2 := between_le elz 0 x
  have b3 := between_le elz (y+1) elz.length
  rintro ⟨a, a', g1, g2, g3, g4, g5⟩
  simp only [splineDir, one_mul] at g1 g2 g3 g4 g5
  have hdvd : (elz.length + q - k) ∣ a' - a := (Nat.modEq_iff_dvd' (by omega)).mp g5
  have := Nat.le_of_dvd (by omega) hdvd
  omega

theorem lag_not_share {elz : List Bool} {x y d k : Nat} (h : Sep elz 1 x y) (hd : 1 ≤ d) (hk : k ≤ 1) (hy : y < elz.length) :
    ¬ (lagDir elz.length d k).share x y := by
  obtain ⟨h1, h2, h3⟩ := h
  have b1 := between_le elz (x+1) y
  have b2 := between_le elz 0 x
  have b3 := between_le elz (y+1) elz.length
  rintro ⟨a, a', g1, g2, g3, g4, g5⟩
  simp only [lagDir] at g1 g2 g3 g4 g5
  have e1 : d*(x+2) ≤ d*y := Nat.mul_le_mul_left d (by omega)
  have e2 : d*(y+2) ≤ d*(elz.length + x) := Nat.mul_le_mul_left d (by omega)
  have e3 : elz.length*d = d*elz.length := Nat.mul_comm _ _
  simp only [Nat.mul_add] at e1 e2
  have hdvd : (elz.length*d + 1 - k) ∣ a' - a := (Nat.modEq_iff_dvd' (by omega)).mp g5
  have := Nat.le_of_dvd (by omega) hdvd
  omega

theorem Dir.share_symm {d : Dir} {i j : Nat} (h : d.share i j) : d.share j i := by
  obtain ⟨a, a', h1, h2, h3, h4, h5⟩ := h
  exact ⟨a', a, h3, h4, h1, h2, h5.symm⟩

/-- A direction with `n` spans is safe for strips with `m` spans: in no pattern of zero spans do separated spans share a function. -/
def Safe (m : Nat) (d : Dir) : Prop :=
  ∀ (elz : List Bool) (x y : Nat), elz.length = d.n → Sep elz m x y → x < d.n → y < d.n → ¬ d.share x y

theorem safe_spline {m n q k : Nat} (hq : q ≤ m) (hk : k ≤ q) : Safe m (splineDir n q k) := by
  intro elz x y hn h _ hy
  have hn : elz.length = n := hn
  subst hn
  exact spline_not_share h hq hk hy

theorem safe_lag {n d k : Nat} (hd : 1 ≤ d) (hk : k ≤ 1) : Safe 1 (lagDir n d k) := by
  intro elz x y hn h _ hy
  have hn : elz.length = n := hn
  subst hn
  exact lag_not_share h hd hk hy

theorem calc_not_share2 {G : Groups} {dir : StripDir} {el1 el2 : List Bool} {m1 m2 : Nat} (hdir : dir = .U ∨ dir = .V)
    (ok : CalcOk G dir (el1.length*el2.length) (pos2 dir el1.length) (spans2 dir el1 el2) (if dir = .U then m1 else m2)) {d1 d2 : Dir}
    (hn1 : d1.n = el1.length) (hn2 : d2.n = el2.length) (h1 : Safe m1 d1) (h2 : Safe m2 d2) {e e' : Int} (hc : Concurrent G e e') {i j i' j' : Nat}
    (ha : At2 el1.length el2.length e i j) (ha' : At2 el1.length el2.length e' i' j') :
    (dir = .U → ¬ d1.share i i') ∧ (dir = .V → ¬ d2.share j j') := by
  have hs := ok.sep e e' hc
  obtain ⟨q1, q2, _, _⟩ := at2_pos ha
  obtain ⟨q1', q2', _, _⟩ := at2_pos ha'
  constructor
  · rintro rfl hsh
    simp only [pos2, spans2, if_true, q1, q1'] at hs
    rcases hs with hs | hs
    · exact h1 el1 i i' hn1.symm hs (hn1 ▸ ha.1) (hn1 ▸ ha'.1) hsh
    · exact h1 el1 i' i hn1.symm hs (hn1 ▸ ha'.1) (hn1 ▸ ha.1) (Dir.share_symm hsh)
  · rintro rfl hsh
    simp only [pos2, spans2, q2, q2', show StripDir.V ≠ .U from (fun h => nomatch h), if_false] at hs
    rcases hs with hs | hs
    · exact h2 el2 j j' hn2.symm hs (hn2 ▸ ha.2.1) (hn2 ▸ ha'.2.1) hsh
    · exact h2 el2 j' j hn2.symm hs (hn2 ▸ ha'.2.1) (hn2 ▸ ha.2.1) (Dir.share_symm hsh)

theorem calc_not_share3 {G : Groups} {dir : StripDir} {el1 el2 el3 : List Bool} {m1 m2 m3 : Nat}
    (ok : CalcOk G dir (el1.length*el2.length*el3.length) (pos3 dir el1.length el2.length) (spans3 dir el1 el2 el3)
      (if dir = .U then m1 else if dir = .V then m2 else m3)) {d1 d2 d3 : Dir}
    (hn1 : d1.n = el1.length) (hn2 : d2.n = el2.length) (hn3 : d3.n = el3.length) (h1 : Safe m1 d1) (h2 : Safe m2 d2) (h3 : Safe m3 d3)
    {e e' : Int} (hc : Concurrent G e e') {i j k i' j' k' : Nat}
    (ha : At3 el1.length el2.length el3.length e i j k) (ha' : At3 el1.length el2.length el3.length e' i' j' k') :
    (dir = .U → ¬ d1.share i i') ∧ (dir = .V → ¬ d2.share j j') ∧ (dir = .W → ¬ d3.share k k') := by
  have hs := ok.sep e e' hc
  obtain ⟨q1, q2, q3, _, _⟩ := at3_pos ha
  obtain ⟨q1', q2', q3', _, _⟩ := at3_pos ha'
  refine ⟨?_, ?_, ?_⟩
  · rintro rfl hsh
    simp only [pos3, spans3, if_true, q1, q1'] at hs
    rcases hs with hs | hs
    · exact h1 el1 i i' hn1.symm hs (hn1 ▸ ha.1) (hn1 ▸ ha'.1) hsh
    · exact h1 el1 i' i hn1.symm hs (hn1 ▸ ha'.1) (hn1 ▸ ha.1) (Dir.share_symm hsh)
  · rintro rfl hsh
    simp only [pos3, spans3, q2, q2', show StripDir.V ≠ .U from (fun h => nomatch h), if_false, if_true] at hs
    rcases hs with hs | hs
    · exact h2 el2 j j' hn2.symm hs (hn2 ▸ ha.2.1) (hn2 ▸ ha'.2.1) hsh
    · exact h2 el2 j' j hn2.symm hs (hn2 ▸ ha'.2.1) (hn2 ▸ ha.2.1) (Dir.share_symm hsh)
  · rintro rfl hsh
    simp only [pos3, spans3, q3, q3', show StripDir.W ≠ .U from (fun h => nomatch h), show StripDir.W ≠ .V from (fun h => nomatch h), if_false] at hs
    rcases hs with hs | hs
    · exact h3 el3 k k' hn3.symm hs (hn3 ▸ ha.2.2.1) (hn3 ▸ ha'.2.2.1) hsh
    · exact h3 el3 k' k hn3.symm hs (hn3 ▸ ha'.2.2.1) (hn3 ▸ ha.2.2.1) (Dir.share_symm hsh)

theorem at2_unique {n1 n2 : Nat} {e : Int} {i j i' j' : Nat} (h : At2 n1 n2 e i j) (h' : At2 n1 n2 e i' j') : i = i' ∧ j = j' := by
  have := at2_pos h
  have := at2_pos h'
  omega

/-- **C24** (two-dimensional spline patches). With the minimum strip sizes `p1`, `p2`, elements on different threads of the same group have no basis function in common, in
any basis of degrees `q1 ≤ p1`, `q2 ≤ p2`, also if the patch is closed (periodic) in one or both directions. -/
theorem C24_spline_2d {threads : Nat} (hT : 1 ≤ threads) {dir : StripDir} (hd : dir = .ANY ∨ dir = .U ∨ dir = .V) (el1 el2 : List Bool) (p1 p2 : Nat) :
    ∃ G, splineGroups2 threads (.new dir) el1 el2 p1 p2 = some G ∧ ∀ q1 q2 k1 k2, q1 ≤ p1 → q2 ≤ p2 → k1 ≤ q1 → k2 ≤ q2 → ∀ e e', Concurrent G e e' →
      ¬ Share2 (splineDir el1.length q1 k1) (splineDir el2.length q2 k2) e e' := by
  obtain ⟨G, dir', he, hdir, _, ok⟩ := calcGroups2z_ok hT (G0 := .new dir) ⟨rfl, rfl⟩ (by simpa [Groups.new] using hd) el1 el2 p1 p2
  refine ⟨G, ?_, ?_⟩
  · unfold splineGroups2
    rw [if_neg (by rcases hd with rfl | rfl | rfl <;> simp [Groups.new])]
    exact he
  · rintro q1 q2 k1 k2 hq1 hq2 hk1 hk2 e e' hc ⟨i, j, i', j', ha, ha', hs1, hs2⟩
    have := calc_not_share2 hdir ok (d1 := splineDir el1.length q1 k1) (d2 := splineDir el2.length q2 k2) rfl rfl
      (safe_spline hq1 hk1) (safe_spline hq2 hk2) hc ha ha'
    rcases hdir with h | h
    · exact this.1 h hs1
    · exact this.2 h hs2

/-- **C24** (three-dimensional spline patches). -/
theorem C24_spline_3d {threads : Nat} (hT : 1 ≤ threads) {dir : StripDir} (hd : dir ≠ .NONE) (el1 el2 el3 : List Bool) (p1 p2 p3 : Nat) :
    ∃ G, splineGroups3 threads (.new dir) el1 el2 el3 p1 p2 p3 = some G ∧ ∀ q1 q2 q3 k1 k2 k3, q1 ≤ p1 → q2 ≤ p2 → q3 ≤ p3 → k1 ≤ q1 → k2 ≤ q2 → k3 ≤ q3 →
      ∀ e e', Concurrent G e e' → ¬ Share3 (splineDir el1.length q1 k1) (splineDir el2.length q2 k2) (splineDir el3.length q3 k3) e e' := by
  obtain ⟨G, dir', he, hdir, _, ok⟩ := calcGroups3z_ok hT (G0 := .new dir) ⟨rfl, rfl⟩ (by simpa [Groups.new] using hd) el1 el2 el3 p1 p2 p3
  refine ⟨G, ?_, ?_⟩
  · unfold splineGroups3
    rw [if_neg (by simpa [Groups.new] using hd)]
    exact he
  · rintro q1 q2 q3 k1 k2 k3 hq1 hq2 hq3 hk1 hk2 hk3 e e' hc ⟨i, j, k, i', j', k', ha, ha', hs1, hs2, hs3⟩
    have := calc_not_share3 ok (d1 := splineDir el1.length q1 k1) (d2 := splineDir el2.length q2 k2) (d3 := splineDir el3.length q3 k3) rfl rfl rfl
      (safe_spline hq1 hk1) (safe_spline hq2 hk2) (safe_spline hq3 hk3) hc ha ha'
    rcases hdir with h | h | h
    · exact this.1 h hs1
    · exact this.2.1 h hs2
    · exact this.2.2 h hs3

/-- **C24** (prescribed strip direction). If the strip direction is prescribed, concurrent elements have no function in common in that direction alone: identifying
functions across the other directions (collapsed edges and faces) is safe as well. -/
theorem C24_prescribed_direction {threads : Nat} (hT : 1 ≤ threads) (el1 el2 el3 : List Bool) (p1 p2 p3 : Nat) :
    (∀ dir, dir = .U ∨ dir = .V → ∃ G, splineGroups2 threads (.new dir) el1 el2 p1 p2 = some G ∧ ∀ e e', Concurrent G e e' → ∀ i j i' j',
      At2 el1.length el2.length e i j → At2 el1.length el2.length e' i' j' →
      (dir = .U → ∀ k ≤ p1, ¬ (splineDir el1.length p1 k).share i i') ∧ (dir = .V → ∀ k ≤ p2, ¬ (splineDir el2.length p2 k).share j j')) ∧
    (∀ dir, dir = .U ∨ dir = .V ∨ dir = .W → ∃ G, splineGroups3 threads (.new dir) el1 el2 el3 p1 p2 p3 = some G ∧ ∀ e e', Concurrent G e e' →
      ∀ i j k i' j' k', At3 el1.length el2.length el3.length e i j k → At3 el1.length el2.length el3.length e' i' j' k' →
      (dir = .U → ∀ c ≤ p1, ¬ (splineDir el1.length p1 c).share i i') ∧ (dir = .V → ∀ c ≤ p2, ¬ (splineDir el2.length p2 c).share j j') ∧
      (dir = .W → ∀ c ≤ p3, ¬ (splineDir el3.length p3 c).share k k')) := by
  constructor
  · intro dir hd
    obtain ⟨G, dir', he, hdir, hpre, ok⟩ := calcGroups2z_ok hT (G0 := .new dir) ⟨rfl, rfl⟩ (by rcases hd with rfl | rfl <;> simp [Groups.new]) el1 el2 p1 p2
    have hdd : dir' = dir := hpre (by rcases hd with rfl | rfl <;> simp [Groups.new])
    subst hdd
    refine ⟨G, ?_, ?_⟩
    · unfold splineGroups2
      rw [if_neg (by rcases hd with rfl | rfl <;> simp [Groups.new])]
      exact he
    · intro e e' hc i j i' j' ha ha'
      constructor
      · intro h k hk
        exact (calc_not_share2 hdir ok (d1 := splineDir el1.length p1 k) (d2 := splineDir el2.length p2 0) rfl rfl
          (safe_spline le_rfl hk) (safe_spline le_rfl (by omega)) hc ha ha').1 h
      · intro h k hk
        exact (calc_not_share2 hdir ok (d1 := splineDir el1.length p1 0) (d2 := splineDir el2.length p2 k) rfl rfl
          (safe_spline le_rfl (by omega)) (safe_spline le_rfl hk) hc ha ha').2 h
  · intro dir hd
    obtain ⟨G, dir', he, hdir, hpre, ok⟩ := calcGroups3z_ok hT (G0 := .new dir) ⟨rfl, rfl⟩ (by rcases hd with rfl | rfl | rfl <;> simp [Groups.new]) el1 el2 el3 p1 p2 p3
    have hdd : dir' = dir := hpre (by rcases hd with rfl | rfl | rfl <;> simp [Groups.new])
    subst hdd
    refine ⟨G, ?_, ?_⟩
    · unfold splineGroups3
      rw [if_neg (by rcases hd with rfl | rfl | rfl <;> simp [Groups.new])]
      exact he
    · intro e e' hc i j k i' j' k' ha ha'
      have key := fun c1 c2 c3 (h1 : c1 ≤ p1) (h2 : c2 ≤ p2) (h3 : c3 ≤ p3) => calc_not_share3 ok (d1 := splineDir el1.length p1 c1)
        (d2 := splineDir el2.length p2 c2) (d3 := splineDir el3.length p3 c3) rfl rfl rfl
          (safe_spline le_rfl h1) (safe_spline le_rfl h2) (safe_spline le_rfl h3) hc ha ha'
      exact ⟨fun h c hc => (key c 0 0 hc (by omega) (by omega)).1 h, fun h c hc => (key 0 c 0 (by omega) hc (by omega)).2.1 h,
        fun h c hc => (key 0 0 c (by omega) (by omega) hc).2.2 h⟩

/-- **C24** (Lagrange patches). The groups of a patch with `nx × ny` nodes and elements of order `p1 × p2` contain all elements exactly once, and
concurrent elements have no common node, also if the patch is closed. -/
theorem C24_lagrange_2d {threads : Nat} (hT : 1 ≤ threads) {dir : StripDir} (hd : dir ≠ .W) (nx ny : Nat) {p1 p2 : Nat} (h1 : 2 ≤ p1) (h2 : 2 ≤ p2) :
    ∃ G, lagGroups2 threads (.new dir) nx ny p1 p2 = some G ∧
      IsPartition G ((nx-1)/(p1-1)*((ny-1)/(p2-1))) (fun e => 0 ≤ e ∧ e < ((nx-1)/(p1-1)*((ny-1)/(p2-1)) : Nat)) ∧
      ∀ k1 k2, k1 ≤ 1 → k2 ≤ 1 → ∀ e e', Concurrent G e e' → ¬ Share2 (lagDir ((nx-1)/(p1-1)) (p1-1) k1) (lagDir ((ny-1)/(p2-1)) (p2-1) k2) e e' := by
  unfold lagGroups2
  generalize (nx-1)/(p1-1) = n1
  generalize (ny-1)/(p2-1) = n2
  by_cases hn : dir = .NONE
  · refine ⟨_, if_pos hn, oneGroup_partition _ _, fun _ _ _ _ e e' hc => absurd hc (oneGroup_concurrent _ _ _ _)⟩
  · have hd' : dir = .ANY ∨ dir = .U ∨ dir = .V := by cases dir <;> simp_all
    obtain ⟨G, e, hp⟩ := C23_plain_2d hT hd' n1 n2 1
    refine ⟨G, by rw [if_neg (by simpa [Groups.new] using hn)]; exact e, hp, ?_⟩
    rw [calcGroups2_eq hT] at e
    obtain ⟨G', dir', he, hdir, _, ok⟩ := calcGroups2z_ok hT (G0 := .new dir) ⟨rfl, rfl⟩ (by simpa [Groups.new] using hd') (List.replicate n1 true) (List.replicate n2 true) 1 1
    obtain rfl : G' = G := Option.some.inj (he.symm.trans e)
    rintro k1 k2 hk1 hk2 e e' hc ⟨i, j, i', j', ha, ha', hs1, hs2⟩
    have := calc_not_share2 hdir ok (d1 := lagDir n1 (p1-1) k1) (d2 := lagDir n2 (p2-1) k2) (by simp [lagDir]) (by simp [lagDir])
      (safe_lag (by omega) hk1) (safe_lag (by omega) hk2) hc (by simpa [lagDir] using ha) (by simpa [lagDir] using ha')
    rcases hdir with h | h
    · exact this.1 h hs1
    · exact this.2 h hs2

/-- **C24** (three-dimensional Lagrange patches). -/
theorem C24_lagrange_3d {threads : Nat} (hT : 1 ≤ threads) (dir : StripDir) (nx ny nz : Nat) {p1 p2 p3 : Nat} (h1 : 2 ≤ p1) (h2 : 2 ≤ p2) (h3 : 2 ≤ p3) :
    ∃ G, lagGroups3 threads (.new dir) nx ny nz p1 p2 p3 = some G ∧
      IsPartition G ((nx-1)/(p1-1)*((ny-1)/(p2-1))*((nz-1)/(p3-1))) (fun e => 0 ≤ e ∧ e < ((nx-1)/(p1-1)*((ny-1)/(p2-1))*((nz-1)/(p3-1)) : Nat)) ∧
      ∀ k1 k2 k3, k1 ≤ 1 → k2 ≤ 1 → k3 ≤ 1 → ∀ e e', Concurrent G e e' →
        ¬ Share3 (lagDir ((nx-1)/(p1-1)) (p1-1) k1) (lagDir ((ny-1)/(p2-1)) (p2-1) k2) (lagDir ((nz-1)/(p3-1)) (p3-1) k3) e e' := by
  unfold lagGroups3
  generalize (nx-1)/(p1-1) = n1
  generalize (ny-1)/(p2-1) = n2
  generalize (nz-1)/(p3-1) = n3
  by_cases hn : dir = .NONE
  · refine ⟨_, if_pos hn, oneGroup_partition _ _, fun _ _ _ _ _ _ e e' hc => absurd hc (oneGroup_concurrent _ _ _ _)⟩
  · obtain ⟨G, e, hp⟩ := C23_plain_3d hT hn n1 n2 n3 1
    refine ⟨G, by rw [if_neg (by simpa [Groups.new] using hn)]; exact e, hp, ?_⟩
    rw [calcGroups3_eq hT] at e
    obtain ⟨G', dir', he, hdir, _, ok⟩ := calcGroups3z_ok hT (G0 := .new dir) ⟨rfl, rfl⟩ (by simpa [Groups.new] using hn)
      (List.replicate n1 true) (List.replicate n2 true) (List.replicate n3 true) 1 1 1
    obtain rfl : G' = G := Option.some.inj (he.symm.trans e)
    rintro k1 k2 k3 hk1 hk2 hk3 e e' hc ⟨i, j, k, i', j', k', ha, ha', hs1, hs2, hs3⟩
    have := calc_not_share3 ok (d1 := lagDir n1 (p1-1) k1) (d2 := lagDir n2 (p2-1) k2) (d3 := lagDir n3 (p3-1) k3) (by simp [lagDir]) (by simp [lagDir]) (by simp [lagDir])
      (safe_lag (by omega) hk1) (safe_lag (by omega) hk2) (safe_lag (by omega) hk3) hc (by simpa [lagDir] using ha) (by simpa [lagDir] using ha')
    rcases hdir with h | h | h
    · exact this.1 h hs1
    · exact this.2.1 h hs2
    · exact this.2.2 h hs3

/-! ## Witnesses -/

/-- Ten times six spans, two of them of zero length, on two threads with quadratic splines: the hypotheses of the theorems are met and there are two groups with two threads. -/
example : (calcGroups2z 2 (.new .ANY) [true, true, false, true, true, true, true, true, true, false] [true, true, true, true, true, true] 2 2).map
    (fun G => (G.stripDir, G.tg0.map List.length, G.tg1.map List.length)) = some (.U, [12, 12], [18, 12]) := by decide +kernel

example : (calcGroups2z 3 (.new .ANY) (List.replicate 7 true) [true] 1 1).map
    (fun G => (G.stripDir, G.tg0, G.tg1)) = some (.U, [[0], [2], [4]], [[1], [3], [5, 6]]) := by decide +kernel

/-- Without at least `degree` spans per strip the claim is false: cubic elements 0 and 2 have functions in common. -/
example : Share2 (splineDir 7 3 0) (splineDir 1 3 0) 0 2 :=
  ⟨0, 0, 2, 0, ⟨by decide, by decide, rfl⟩, ⟨by decide, by decide, rfl⟩, ⟨2, 2, by decide⟩, ⟨0, 0, by decide⟩⟩

/-- The groups must be fresh: computing them a second time on the same object assigns every element twice. -/
theorem C23_recomputed : ∃ G G', calcGroups2 2 (.new .ANY) 4 4 1 = some G ∧ calcGroups2 2 G 4 4 1 = some G' ∧ ¬ (groupElms G').Nodup := by
  have h : (calcGroups2 2 (.new .ANY) 4 4 1).isSome = true := by decide +kernel
  obtain ⟨G, hG⟩ := Option.isSome_iff_exists.mp h
  have h' : ((calcGroups2 2 (.new .ANY) 4 4 1).bind fun G => calcGroups2 2 G 4 4 1).isSome = true := by decide +kernel
  rw [hG] at h'
  obtain ⟨G', hG'⟩ := Option.isSome_iff_exists.mp h'
  have hG' : calcGroups2 2 G 4 4 1 = some G' := hG'
  refine ⟨G, G', hG, hG', ?_⟩
  have h2 : ((calcGroups2 2 (.new .ANY) 4 4 1).bind fun G => calcGroups2 2 G 4 4 1).map (fun G => (groupElms G).Nodup) = some False := by
    have : ∀ l : List Int, decide l.Nodup = false → (l.Nodup) = False := fun l h => by simpa using h
    rcases hq : (calcGroups2 2 (.new .ANY) 4 4 1).bind (fun G => calcGroups2 2 G 4 4 1) with _ | Q
    · rw [hG] at hq; exact absurd (hq.symm.trans hG') (by simp)
    · refine congrArg some (this _ ?_)
      have hd : ((calcGroups2 2 (.new .ANY) 4 4 1).bind fun G => calcGroups2 2 G 4 4 1).map (fun G => decide (groupElms G).Nodup) = some false := by decide +kernel
      rw [hq] at hd
      exact Option.some.inj hd
  rw [hG] at h2
  have h3 : (some G').map (fun G => (groupElms G).Nodup) = some False := by rw [← hG']; exact h2
  have : (groupElms G').Nodup = False := Option.some.inj h3
  rw [this]; exact id

end IFEM.Props
