import Verif.Props.Collapse
import Mathlib.Algebra.Field.Rat
import Mathlib.Algebra.Order.Field.Rat
/-!
# C86: collapsed edges of quadrilateral patches
-/
namespace IFEM.ClosePatch
open IFEM IFEM.Spec IFEM.Props Spec
variable {K : Type} [Field K] [LinearOrder K]

omit [LinearOrder K] in
theorem collapseLoop_spec (same : Nat → Nat → Bool) (q L nf m inc c node : Nat) (M : PatchModel K) (h : HasPatch M q L nf) (hm : 1 ≤ m ∧ m ≤ L) (hr : ∀ i, i < c → 1 ≤ node + inc*i ∧ node + inc*i ≤ L) :
    ((collapseLoop same q m inc c node M).1 = true ↔ ∀ i, i < c → same (node + inc*i) m = true) ∧
    ((∀ i, i < c → same (node + inc*i) m = true) → HasPatch (collapseLoop same q m inc c node M).2 q L nf ∧
      nodeNum (collapseLoop same q m inc c node M).2 q = pairAll (nodeNum M q) ((List.range c).map fun i => (m, node + inc*i))) := by
  induction c generalizing node M with
  | zero => exact ⟨by simp [collapseLoop], fun _ => ⟨h, rfl⟩⟩
  | succ c ih =>
    have hi : ∀ i, node + inc + inc*i = node + inc*(i+1) := fun i => by ring
    rw [collapseLoop]
    by_cases hs : same node m = true
    · rw [if_pos hs]
      obtain ⟨r1, r2⟩ := collapse_num M q L nf (m, node) h hm (by simpa using hr 0 (by omega))
      obtain ⟨i1, i2⟩ := ih (node + inc) _ r1 (fun i hi' => by rw [hi]; exact hr (i+1) (by omega))
      have heq : (∀ i, i < c + 1 → same (node + inc*i) m = true) ↔ ∀ i, i < c → same (node + inc + inc*i) m = true := by
        constructor
        · intro hh i hi'; rw [hi]; exact hh (i+1) (by omega)
        · intro hh i hi'
          rcases i with _ | i
          · simpa using hs
          · rw [← hi]; exact hh i (by omega)
      refine ⟨i1.trans heq.symm, fun hh => ?_⟩
      obtain ⟨j1, j2⟩ := i2 (heq.mp hh)
      refine ⟨j1, ?_⟩
      rw [j2, (funext r2 : nodeNum (collapseNodes M q m q node).2 q = _), List.range_succ_eq_map, List.map_cons, List.map_map]
      show _ = pairAll (pairUp (nodeNum M q) (m, node + inc*0)) _
      rw [Nat.mul_zero, Nat.add_zero]
      congr 1
      apply List.map_congr_left
      intro i _
      simp only [Function.comp_apply, Nat.succ_eq_add_one, hi]
    · rw [if_neg hs]
      refine ⟨?_, fun hh => absurd (by simpa using hh 0 (by omega)) hs⟩
      constructor
      · intro hc; simp at hc
      · intro hh; exact absurd (by simpa using hh 0 (by omega)) hs

/-- One node paired with several others, one after the other. -/
theorem star (ν : Nat → Int) (m : Nat) (f : Nat → Nat) (c : Nat) (hf : ∀ i j, i < c → j < c → f i = f j → i = j) (hm : ∀ i, i < c → f i ≠ m) :
    (∀ v, v ≤ pairAll ν ((List.range c).map fun i => (m, f i)) m ↔ v ≤ ν m ∧ ∀ j, j < c → v ≤ ν (f j)) ∧
    (∀ i, i < c → ∀ v, v ≤ pairAll ν ((List.range c).map fun i => (m, f i)) (f i) ↔ v ≤ ν m ∧ ∀ j, j ≤ i → v ≤ ν (f j)) ∧
    ∀ x, x ≠ m → (∀ i, i < c → x ≠ f i) → pairAll ν ((List.range c).map fun i => (m, f i)) x = ν x := by
  induction c with
  | zero => exact ⟨by simp [pairAll], by simp, fun x _ _ => rfl⟩
  | succ c ih =>
    obtain ⟨i1, i2, i3⟩ := ih (fun i j hi hj => hf i j (by omega) (by omega)) (fun i hi => hm i (by omega))
    have e : pairAll ν ((List.range (c+1)).map fun i => (m, f i)) = pairUp (pairAll ν ((List.range c).map fun i => (m, f i))) (m, f c) := by
      rw [List.range_succ, List.map_append, pairAll, List.foldl_append]; rfl
    rw [e]
    generalize pairAll ν ((List.range c).map fun i => (m, f i)) = ν1 at i1 i2 i3
    have hc : ν1 (f c) = ν (f c) := i3 (f c) (hm c (by omega)) (fun i hi he => by have := hf c i (by omega) (by omega) he; omega)
    have hmin : ∀ v, v ≤ min (ν1 m) (ν1 (f c)) ↔ v ≤ ν m ∧ ∀ j, j < c + 1 → v ≤ ν (f j) := by
      intro v
      rw [le_min_iff, i1, hc]
      constructor
      · rintro ⟨⟨a, b⟩, d⟩
        refine ⟨a, fun j hj => ?_⟩
        by_cases hjc : j = c
        · rw [hjc]; exact d
        · exact b j (by omega)
      · rintro ⟨a, b⟩
        exact ⟨⟨a, fun j hj => b j (by omega)⟩, b c (by omega)⟩
    refine ⟨fun v => ?_, fun i hi v => ?_, fun x hx hx' => ?_⟩
    · rw [pairUp, if_pos (Or.inl rfl)]
      exact hmin v
    · by_cases hic : i = c
      · rw [hic, pairUp, if_pos (Or.inr rfl)]
        refine (hmin v).trans ?_
        constructor
        · rintro ⟨a, b⟩; exact ⟨a, fun j hj => b j (by omega)⟩
        · rintro ⟨a, b⟩; exact ⟨a, fun j hj => b j (by omega)⟩
      · rw [pairUp, if_neg]
        · exact i2 i (by omega) v
        · rintro (h | h)
          · exact hm i hi h
          · exact hic (hf i c hi (by omega) h)
    · rw [pairUp, if_neg]
      · exact i3 x hx (fun i hi => hx' i (by omega))
      · rintro (h | h)
        · exact hx h
        · exact hx' c (by omega) h

/-- The node number of the `k`-th grid point of an edge. -/
def edgeNode (start n1 n2 edge k : Nat) : Nat := start + (edgePoint n1 n2 edge k).1 + n1 * (edgePoint n1 n2 edge k).2

/-- The nodes of an edge as an arithmetic sequence. -/
theorem edge_seq (start n1 n2 edge : Nat) (h1 : 1 ≤ n1) (h2 : 1 ≤ n2) (he : 1 ≤ edge ∧ edge ≤ 4) (hs : 1 ≤ start) :
    ∃ m inc, 1 ≤ inc ∧ 1 ≤ edgeSize n1 n2 edge ∧ (∀ k, edgeNode start n1 n2 edge k = m + inc*k) ∧ (∀ k, k < edgeSize n1 n2 edge → 1 ≤ m + inc*k ∧ m + inc*k < start + n1*n2) ∧
      ∀ {K : Type} [Field K] (same : Nat → Nat → Bool) (swapV : Bool) (edge' q : Nat) (M : PatchModel K), edge = (if swapV = true ∧ edge' > 2 then 7 - edge' else edge') →
        collapseEdge same swapV q n1 n2 start edge' M = collapseLoop same q m inc (edgeSize n1 n2 edge - 1) (m + inc) M := by
  obtain ⟨e1, rfl⟩ : ∃ e, n1 = e + 1 := ⟨n1 - 1, by omega⟩
  obtain ⟨e2, rfl⟩ : ∃ e, n2 = e + 1 := ⟨n2 - 1, by omega⟩
  rcases (by omega : edge = 1 ∨ edge = 2 ∨ edge = 3 ∨ edge = 4) with rfl | rfl | rfl | rfl
  · refine ⟨start, e1+1, by omega, by simp [edgeSize], fun k => by simp [edgeNode, edgePoint], fun k hk => ⟨by omega, ?_⟩, ?_⟩
    · simp only [edgeSize] at hk
      have : (e1+1)*k < (e1+1)*(e2+1) := Nat.mul_lt_mul_of_pos_left (by simpa using hk) (by omega)
      omega
    · intro K _ same swapV edge' q M he
      rw [collapseEdge, ← he]; simp [edgeSize]
  · refine ⟨start + e1, e1+1, by omega, by simp [edgeSize], fun k => by simp [edgeNode, edgePoint], fun k hk => ⟨by omega, ?_⟩, ?_⟩
    · simp only [edgeSize] at hk
      have : (e1+1)*k + (e1+1) ≤ (e1+1)*(e2+1) := by
        calc (e1+1)*k + (e1+1) = (e1+1)*(k+1) := by ring
          _ ≤ _ := Nat.mul_le_mul_left _ (by simp at hk; omega)
      omega
    · intro K _ same swapV edge' q M he
      rw [collapseEdge, ← he]; simp [edgeSize]
  · refine ⟨start, 1, by omega, by simp [edgeSize], fun k => by simp [edgeNode, edgePoint], fun k hk => ⟨by omega, ?_⟩, ?_⟩
    · simp only [edgeSize] at hk
      have : (e1+1)*1 ≤ (e1+1)*(e2+1) := Nat.mul_le_mul_left _ (by omega)
      simp at hk
      omega
    · intro K _ same swapV edge' q M he
      rw [collapseEdge, ← he]; simp [edgeSize]
  · refine ⟨start + (e1+1)*e2, 1, by omega, by simp [edgeSize], fun k => by simp [edgeNode, edgePoint]; ring, fun k hk => ⟨by omega, ?_⟩, ?_⟩
    · simp only [edgeSize] at hk
      have : (e1+1)*(e2+1) = (e1+1)*e2 + (e1+1) := by ring
      simp at hk
      omega
    · intro K _ same swapV edge' q M he
      rw [collapseEdge, ← he]; simp [edgeSize]

/-- C86: collapsing an edge of a quadrilateral patch.  It succeeds exactly if all nodes of the edge are co-located with its first one.  Then the first node gets the smallest number of the edge, each further node the smallest number up to itself,
and all other nodes keep their numbers. -/
theorem C86_collapse_edge (same : Nat → Nat → Bool) (M : PatchModel K) (q L nf start n1 n2 : Nat) (edge edge' : Nat) (swapV : Bool) (he : 1 ≤ edge ∧ edge ≤ 4) (hsw : edge = if swapV = true ∧ edge' > 2 then 7 - edge' else edge')
    (h : HasPatch M q L nf) (h1 : 1 ≤ n1) (h2 : 1 ≤ n2) (hs : 1 ≤ start) (hL : start + n1 * n2 ≤ L + 1) :
    ((collapseEdge same swapV q n1 n2 start edge' M).1 = true ↔ ∀ k, 1 ≤ k → k < edgeSize n1 n2 edge → same (edgeNode start n1 n2 edge k) (edgeNode start n1 n2 edge 0) = true) ∧
    ((collapseEdge same swapV q n1 n2 start edge' M).1 = true →
      (∀ k, k < edgeSize n1 n2 edge → ∀ v, v ≤ nodeNum (collapseEdge same swapV q n1 n2 start edge' M).2 q (edgeNode start n1 n2 edge k) ↔
        ∀ j, j < edgeSize n1 n2 edge → (k = 0 ∨ j ≤ k) → v ≤ nodeNum M q (edgeNode start n1 n2 edge j)) ∧
      ∀ a, (∀ k, k < edgeSize n1 n2 edge → a ≠ edgeNode start n1 n2 edge k) → nodeNum (collapseEdge same swapV q n1 n2 start edge' M).2 q a = nodeNum M q a) := by
  obtain ⟨m, inc, hinc, hN, hk, hr, hc⟩ := edge_seq start n1 n2 edge h1 h2 he hs
  rw [hc same swapV edge' q M hsw]
  generalize edgeSize n1 n2 edge = N at *
  have hi : ∀ i, m + inc + inc*i = m + inc*(i+1) := fun i => by ring
  obtain ⟨a1, a2⟩ := collapseLoop_spec same q L nf m inc (N-1) (m + inc) M h (by have := hr 0 (by omega); simp at this; omega)
    (fun i hi' => by rw [hi]; have := hr (i+1) (by omega); omega)
  have heq : (∀ i, i < N - 1 → same (m + inc + inc*i) m = true) ↔ ∀ k, 1 ≤ k → k < N → same (edgeNode start n1 n2 edge k) (edgeNode start n1 n2 edge 0) = true := by
    constructor
    · intro hh k hk1 hkN
      obtain ⟨k, rfl⟩ : ∃ e, k = e + 1 := ⟨k - 1, by omega⟩
      rw [hk, hk, Nat.mul_zero, Nat.add_zero, ← hi]; exact hh k (by omega)
    · intro hh i hi'
      have := hh (i+1) (by omega) (by omega)
      rw [hk, hk, Nat.mul_zero, Nat.add_zero, ← hi] at this; exact this
  refine ⟨a1.trans heq, fun ht => ?_⟩
  obtain ⟨_, hp⟩ := a2 (a1.mp ht)
  rw [hp]
  obtain ⟨s1, s2, s3⟩ := star (nodeNum M q) m (fun i => m + inc + inc*i) (N-1)
    (fun i j _ _ he => by
      have : inc*i = inc*j := by omega
      exact Nat.eq_of_mul_eq_mul_left hinc this)
    (fun i _ => by omega)
  refine ⟨fun k hkN v => ?_, fun a ha => ?_⟩
  · rcases k with _ | k
    · rw [hk, Nat.mul_zero, Nat.add_zero, s1]
      constructor
      · rintro ⟨x1, x2⟩ j hj _
        rcases j with _ | j
        · rw [hk, Nat.mul_zero, Nat.add_zero]; exact x1
        · rw [hk, ← hi]; exact x2 j (by omega)
      · intro hh
        refine ⟨by have := hh 0 hN (Or.inl rfl); rwa [hk, Nat.mul_zero, Nat.add_zero] at this, fun j hj => ?_⟩
        have := hh (j+1) (by omega) (Or.inl rfl)
        rwa [hk, ← hi] at this
    · rw [hk, ← hi]
      refine (s2 k (by omega) v).trans ?_
      constructor
      · rintro ⟨x1, x2⟩ j hj hjk
        rcases j with _ | j
        · rw [hk, Nat.mul_zero, Nat.add_zero]; exact x1
        · rw [hk, ← hi]; exact x2 j (by omega)
      · intro hh
        refine ⟨by have := hh 0 hN (Or.inr (by omega)); rwa [hk, Nat.mul_zero, Nat.add_zero] at this, fun j hj => ?_⟩
        have := hh (j+1) (by omega) (Or.inr (by omega))
        rwa [hk, ← hi] at this
  · apply s3
    · have := ha 0 hN; rwa [hk, Nat.mul_zero, Nat.add_zero] at this
    · intro i hi'
      have := ha (i+1) (by omega)
      rwa [hk, ← hi] at this

/-- C86: the collapsed edge becomes one node exactly if none of its nodes had a smaller number than its first two — which holds for a patch numbered in ascending order, but need not hold after the patch has been connected to others. -/
theorem C86_collapse_edge_one (same : Nat → Nat → Bool) (M : PatchModel K) (q L nf start n1 n2 : Nat) (edge edge' : Nat) (swapV : Bool) (he : 1 ≤ edge ∧ edge ≤ 4) (hsw : edge = if swapV = true ∧ edge' > 2 then 7 - edge' else edge')
    (h : HasPatch M q L nf) (h1 : 1 ≤ n1) (h2 : 1 ≤ n2) (hs : 1 ≤ start) (hL : start + n1 * n2 ≤ L + 1) (hok : (collapseEdge same swapV q n1 n2 start edge' M).1 = true) (hN : 2 ≤ edgeSize n1 n2 edge) :
    (∀ k, k < edgeSize n1 n2 edge → nodeNum (collapseEdge same swapV q n1 n2 start edge' M).2 q (edgeNode start n1 n2 edge k) = nodeNum (collapseEdge same swapV q n1 n2 start edge' M).2 q (edgeNode start n1 n2 edge 0)) ↔
    ∀ k, k < edgeSize n1 n2 edge → nodeNum M q (edgeNode start n1 n2 edge 0) ≤ nodeNum M q (edgeNode start n1 n2 edge k) ∨ nodeNum M q (edgeNode start n1 n2 edge 1) ≤ nodeNum M q (edgeNode start n1 n2 edge k) := by
  obtain ⟨_, hv⟩ := C86_collapse_edge same M q L nf start n1 n2 edge edge' swapV he hsw h h1 h2 hs hL
  obtain ⟨hv, _⟩ := hv hok
  generalize nodeNum (collapseEdge same swapV q n1 n2 start edge' M).2 q = ν' at *
  generalize nodeNum M q = ν at *
  generalize edgeSize n1 n2 edge = N at *
  generalize edgeNode start n1 n2 edge = f at *
  constructor
  · intro hall k hk
    have e1 := hall 1 (by omega)
    have h0 := (hv 0 (by omega) (ν' (f 0))).mp le_rfl k hk (Or.inl rfl)
    by_contra hc
    push Not at hc
    have : ν (f k) + 1 ≤ ν' (f 1) := by
      apply (hv 1 (by omega) _).mpr
      intro j hj hj1
      rcases (by omega : j = 0 ∨ j = 1) with rfl | rfl <;> omega
    omega
  · intro hall k hk
    have key : ∀ k, k < N → ν' (f k) = min (ν (f 0)) (ν (f 1)) := by
      intro k hk
      apply le_antisymm
      · have := (hv k hk (ν' (f k))).mp le_rfl
        apply le_min
        · exact this 0 (by omega) (by omega)
        · exact this 1 (by omega) (by omega)
      · apply (hv k hk _).mpr
        intro j hj _
        rcases hall j hj with hh | hh
        · exact (min_le_left _ _).trans hh
        · exact (min_le_right _ _).trans hh
    rw [key k hk, key 0 (by omega)]

/-! ## Mixed patches -/

omit [LinearOrder K] in
/-- C86: each basis of a mixed patch is closed from its own first node on, behind the nodes of the bases before it. -/
theorem C86_close_mixed {σ : Type} (c : Nat → σ → Nat → PatchModel K → Option (PatchModel K)) (bs : List (Nat × Nat × σ)) (nf nb : Nat) (sz : σ) (M : PatchModel K) :
    closeMixed c (bs ++ [(nf, nb, sz)]) 1 M = (closeMixed c bs 1 M).bind (c nf sz (1 + (bs.map fun b => b.2.1).sum)) := by
  have key : ∀ (bs : List (Nat × Nat × σ)) (s : Nat) (M : PatchModel K), closeMixed c (bs ++ [(nf, nb, sz)]) s M = (closeMixed c bs s M).bind (c nf sz (s + (bs.map fun b => b.2.1).sum)) := by
    intro bs
    induction bs with
    | nil =>
      intro s M
      simp only [List.nil_append, closeMixed, List.map_nil, List.sum_nil, Nat.add_zero, Option.bind_some]
      cases c nf sz s M <;> rfl
    | cons b bs ih =>
      intro s M
      obtain ⟨nf', nb', sz'⟩ := b
      rw [List.cons_append, closeMixed, closeMixed]
      cases c nf' sz' s M with
      | none => rfl
      | some M1 =>
        dsimp only
        rw [ih, List.map_cons, List.sum_cons, Nat.add_assoc]
  exact key bs 1 M

/-! ## One direction -/

/-- C86: a curve with three unknowns per node is closed by a common number of its ends. -/
theorem C86_close_1D (tol : K) (M : PatchModel K) (q L n1 : Nat) (h : HasPatch M q L 3) (h1 : 1 ≤ n1) (hL : n1 ≤ L) :
    ∃ M', closeBoundaries1D tol q n1 1 M = some M' ∧ nodeNum M' q 1 = nodeNum M' q n1 ∧
      nodeNum M' q 1 = min (nodeNum M q 1) (nodeNum M q n1) ∧ ∀ a, a ≠ 1 → a ≠ n1 → nodeNum M' q a = nodeNum M q a := by
  have e : getDirs 3 = 123 := by decide +kernel
  obtain ⟨M', e1, _, e3⟩ := makePeriodic_num tol M q L 3 (1, 1 + n1 - 1) h (by omega) (by omega) ⟨by omega, by dsimp only; omega⟩ ⟨by dsimp only; omega, by dsimp only; omega⟩
  rw [e] at e1
  have hn : 1 + n1 - 1 = n1 := by omega
  rw [hn] at e3
  refine ⟨M', e1, ?_, ?_, fun a ha ha' => ?_⟩
  · rw [e3]; simp [pairUp]
  · rw [e3]; simp [pairUp]
  · rw [e3, pairUp, if_neg]; tauto

end IFEM.ClosePatch
