import Mathlib.Tactic.Positivity
import Mathlib.Order.Monotone.Basic
import Verif.Spec.BSpline
import Verif.Props.Topology
import Mathlib.Algebra.Order.Ring.Unbundled.Rat
import Mathlib.Algebra.Field.Rat
/-!
# C55: connectivity of structured spline patches
-/
namespace IFEM.Props
open IFEM.Spec IFEM.Topo IFEM.Lag IFEM.Threads

section
variable {K : Type} [Field K] [LinearOrder K] [IsStrictOrderedRing K]

/-- In the interior of a knot span exactly the `p` basis functions ending at the span's number are positive; all others vanish. -/
theorem bspline_support (t : Nat → K) (ht : Monotone t) (m : Nat) (x : K) (h1 : t m < x) (h2 : x < t (m+1)) (p : Nat) : ∀ k,
    (k ≤ m ∧ m < k + (p+1) → 0 < bspline t (p+1) k x) ∧ (¬ (k ≤ m ∧ m < k + (p+1)) → bspline t (p+1) k x = 0) := by
  induction p with
  | zero =>
    intro k
    have e : bspline t (0+1) k x = if t k ≤ x ∧ x < t (k+1) then 1 else 0 := rfl
    rw [e]
    refine ⟨fun h => ?_, fun h => ?_⟩
    · obtain rfl : k = m := by omega
      rw [if_pos ⟨h1.le, h2⟩]; exact one_pos
    · refine if_neg fun hc => h ?_
      constructor
      · by_contra hk
        exact absurd (lt_of_lt_of_le h2 (ht (show m+1 ≤ k by omega))) (not_lt.2 hc.1)
      · by_contra hk
        exact absurd (lt_of_le_of_lt (ht (show k+1 ≤ m by omega)) h1) (not_lt.2 hc.2.le)
  | succ p ih =>
    intro k
    have e : bspline t (p+1+1) k x = (x - t k) / (t (k+p+1) - t k) * bspline t (p+1) k x + (t (k+p+2) - x) / (t (k+p+2) - t (k+1)) * bspline t (p+1) (k+1) x := rfl
    rw [e]
    have lo : ∀ j, j ≤ m → 0 < x - t j := fun j hj => sub_pos.2 (lt_of_le_of_lt (ht hj) h1)
    have hi : ∀ j, m < j → 0 < t j - x := fun j hj => sub_pos.2 (lt_of_lt_of_le h2 (ht hj))
    have df : ∀ j l, j ≤ m → m < l → 0 < t l - t j := fun j l hj hl => by
      have := add_pos (lo j hj) (hi l hl); rwa [sub_add_sub_cancel'] at this
    have f1 : (k ≤ m ∧ m < k+(p+1)) → 0 < (x - t k) / (t (k+p+1) - t k) * bspline t (p+1) k x := fun h =>
      mul_pos (div_pos (lo k h.1) (df k _ h.1 (by omega))) ((ih k).1 h)
    have f2 : (k+1 ≤ m ∧ m < k+1+(p+1)) → 0 < (t (k+p+2) - x) / (t (k+p+2) - t (k+1)) * bspline t (p+1) (k+1) x := fun h =>
      mul_pos (div_pos (hi _ (by omega)) (df _ _ h.1 (by omega))) ((ih (k+1)).1 h)
    have z1 : ¬ (k ≤ m ∧ m < k+(p+1)) → (x - t k) / (t (k+p+1) - t k) * bspline t (p+1) k x = 0 := fun h => by rw [(ih k).2 h, mul_zero]
    have z2 : ¬ (k+1 ≤ m ∧ m < k+1+(p+1)) → (t (k+p+2) - x) / (t (k+p+2) - t (k+1)) * bspline t (p+1) (k+1) x = 0 := fun h => by rw [(ih (k+1)).2 h, mul_zero]
    by_cases c1 : k ≤ m ∧ m < k+(p+1)
    · by_cases c2 : k+1 ≤ m ∧ m < k+1+(p+1)
      · exact ⟨fun _ => add_pos (f1 c1) (f2 c2), fun h => absurd (by omega) h⟩
      · rw [z2 c2, add_zero]
        exact ⟨fun _ => f1 c1, fun h => absurd (by omega) h⟩
    · rw [z1 c1, zero_add]
      by_cases c2 : k+1 ≤ m ∧ m < k+1+(p+1)
      · exact ⟨fun _ => f2 c2, fun h => absurd (by omega) h⟩
      · exact ⟨fun h => by omega, fun _ => z2 c2⟩

theorem bspline_ne (t : Nat → K) (ht : Monotone t) (m : Nat) (x : K) (h1 : t m < x) (h2 : x < t (m+1)) (p k : Nat) (hp : 0 < p) :
    bspline t p k x ≠ 0 ↔ k ≤ m ∧ m < k + p := by
  obtain ⟨q, rfl⟩ : ∃ q, p = q+1 := ⟨p-1, by omega⟩
  obtain ⟨a, b⟩ := bspline_support t ht m x h1 h2 q k
  exact ⟨fun h => by_contra fun hc => h (b hc), fun h => (a h).ne'⟩

theorem isSpan_knots (t : Nat → K) (n m : Nat) (h : m < n) : isSpan (knotSpans t n) m = decide (t m < t (m+1)) := by
  simp [isSpan, knotSpans, List.getD_eq_getElem?_getD, h]
end

theorem range'_map_get {α : Type} (f : Nat → α) (s n i : Nat) (h : i < n) : ((List.range' s n).map f)[i]? = some (f (s+i)) := by
  simp [h]

theorem flatMap_range'_length {α : Type} (g : Nat → List α) (m s n : Nat) (h : ∀ k, (g k).length = m) : ((List.range' s n).flatMap g).length = n*m := by
  have := flatMap_range_length (fun i => g (s+i)) m n (fun k _ => h _)
  rw [← this, List.range'_eq_map_range, List.flatMap_map]

theorem flatMap_range'_get {α : Type} (g : Nat → List α) (m s n : Nat) (h : ∀ k, (g k).length = m) (k i : Nat) (hk : k < n) (hi : i < m) :
    ((List.range' s n).flatMap g)[k*m+i]? = (g (s+k))[i]? := by
  have := flatMap_range_get (fun i => g (s+i)) m n (fun k _ => h _) k i hk hi
  rw [← this, List.range'_eq_map_range, List.flatMap_map]

theorem reverse_range_eq (n : Nat) : (List.range n).reverse = (List.range n).map fun a => n-1-a := by
  refine List.ext_getElem (by simp) fun i h1 h2 => ?_
  simp at h1 h2 ⊢

theorem reverse_range_map {α : Type} (f : Nat → α) (n : Nat) : (List.range n).reverse.map f = (List.range n).map fun a => f (n-1-a) := by
  rw [reverse_range_eq, List.map_map]; rfl

theorem reverse_range_flatMap {α : Type} (f : Nat → List α) (n : Nat) : (List.range n).reverse.flatMap f = (List.range n).flatMap fun a => f (n-1-a) := by
  rw [reverse_range_eq, List.flatMap_map]

/-- The nodes of a spline element which starts at basis functions `i`, `j`. -/
theorem splineElm2 (n1 p1 p2 i j : Nat) :
    ((List.range p2).reverse.flatMap fun j2 => (List.range p1).reverse.map fun j1 => (p2+j-1)*n1 + (p1+i)-1 - n1*j2 - j1) =
      (List.range p2).flatMap fun b => (List.range p1).map fun a => gridNode2 n1 (i+a) (j+b) := by
  rw [reverse_range_flatMap]
  refine List.flatMap_congr fun b hb => ?_
  rw [reverse_range_map]
  refine List.map_congr_left fun a ha => ?_
  rw [List.mem_range] at ha hb
  unfold gridNode2
  have : (p2+j-1)*n1 = n1*(j+b) + n1*(p2-1-b) := by
    rw [← Nat.mul_add, Nat.mul_comm]; congr 1; omega
  omega

theorem splineElm3 (n1 n2 p1 p2 p3 i j k : Nat) :
    ((List.range p3).reverse.flatMap fun j3 => (List.range p2).reverse.flatMap fun j2 => (List.range p1).reverse.map fun j1 =>
        ((p3+k-1)*n2 + (p2+j-1))*n1 + (p1+i)-1 - n1*n2*j3 - n1*j2 - j1) =
      (List.range p3).flatMap fun c => (List.range p2).flatMap fun b => (List.range p1).map fun a => gridNode3 n1 n2 (i+a) (j+b) (k+c) := by
  rw [reverse_range_flatMap]
  refine List.flatMap_congr fun c hc => ?_
  rw [reverse_range_flatMap]
  refine List.flatMap_congr fun b hb => ?_
  rw [reverse_range_map]
  refine List.map_congr_left fun a ha => ?_
  rw [List.mem_range] at ha hb hc
  unfold gridNode3
  have : ((p3+k-1)*n2 + (p2+j-1))*n1 = n1*(j+b+n2*(k+c)) + n1*n2*(p3-1-c) + n1*(p2-1-b) := by
    have e1 : p3+k-1 = (k+c) + (p3-1-c) := by omega
    have e2 : p2+j-1 = (j+b) + (p2-1-b) := by omega
    rw [e1, e2]; ring
  omega

/-- **C55** (curves). A spline curve patch with `n` basis functions of order `p` has one (possibly empty) element for each knot interval between the end knots; an interval of
zero length has no nodes, and the nodes of any other element, in order, are the functions `i, …, i+p-1`. -/
theorem C55_curve (n p : Nat) (hp : 0 < p) (hn : p ≤ n) (span : List Bool) :
    (splineMNPC1 n p span).length = n - p + 1 ∧ ∀ i, i + p ≤ n →
      (splineMNPC1 n p span)[i]? = some (if isSpan span (i+p-1) then (List.range p).map fun a => i + a else []) := by
  unfold splineMNPC1
  refine ⟨by simp; omega, fun i hi => ?_⟩
  rw [range'_map_get _ _ _ _ (by omega), show p + i - 1 = i + p - 1 by omega]
  congr 1
  split
  · rw [reverse_range_map]
    refine List.map_congr_left fun a ha => ?_
    rw [List.mem_range] at ha
    omega
  · rfl

/-- **C55** (surfaces). Element `(i, j)` of a spline surface patch with `n1 x n2` basis functions of orders `p1`, `p2` has no nodes if one of its knot intervals has zero
length, and otherwise the nodes `(i+a, j+b)`, `a < p1`, `b < p2` of the control net, the first direction running fastest. -/
theorem C55_surface (n1 n2 p1 p2 : Nat) (h1 : 0 < p1) (h2 : 0 < p2) (hn1 : p1 ≤ n1) (hn2 : p2 ≤ n2) (span1 span2 : List Bool) :
    (splineMNPC2 n1 n2 p1 p2 span1 span2).length = (n1 - p1 + 1)*(n2 - p2 + 1) ∧ ∀ i j, i + p1 ≤ n1 → j + p2 ≤ n2 →
      (splineMNPC2 n1 n2 p1 p2 span1 span2)[i + (n1-p1+1)*j]? = some (if isSpan span1 (i+p1-1) && isSpan span2 (j+p2-1) then
        (List.range p2).flatMap fun b => (List.range p1).map fun a => gridNode2 n1 (i+a) (j+b) else []) := by
  unfold splineMNPC2
  rw [show n1+1-p1 = n1-p1+1 by omega, show n2+1-p2 = n2-p2+1 by omega]
  refine ⟨?_, fun i j hi hj => ?_⟩
  · rw [flatMap_range'_length _ (n1-p1+1) _ _ (fun k => by simp), Nat.mul_comm]
  · rw [show i + (n1-p1+1)*j = j*(n1-p1+1) + i by ring, flatMap_range'_get _ (n1-p1+1) _ _ (fun k => by simp) j i (by omega) (by omega),
      range'_map_get _ _ _ _ (by omega), splineElm2, show p1 + i - 1 = i + p1 - 1 by omega, show p2 + j - 1 = j + p2 - 1 by omega]

/-- **C55** (volumes). -/
theorem C55_volume (n1 n2 n3 p1 p2 p3 : Nat) (h1 : 0 < p1) (h2 : 0 < p2) (h3 : 0 < p3) (hn1 : p1 ≤ n1) (hn2 : p2 ≤ n2) (hn3 : p3 ≤ n3) (span1 span2 span3 : List Bool) :
    (splineMNPC3 n1 n2 n3 p1 p2 p3 span1 span2 span3).length = (n1 - p1 + 1)*(n2 - p2 + 1)*(n3 - p3 + 1) ∧
    ∀ i j k, i + p1 ≤ n1 → j + p2 ≤ n2 → k + p3 ≤ n3 →
      (splineMNPC3 n1 n2 n3 p1 p2 p3 span1 span2 span3)[i + (n1-p1+1)*(j + (n2-p2+1)*k)]? =
        some (if isSpan span1 (i+p1-1) && isSpan span2 (j+p2-1) && isSpan span3 (k+p3-1) then
          (List.range p3).flatMap fun c => (List.range p2).flatMap fun b => (List.range p1).map fun a => gridNode3 n1 n2 (i+a) (j+b) (k+c) else []) := by
  unfold splineMNPC3
  rw [show n1+1-p1 = n1-p1+1 by omega, show n2+1-p2 = n2-p2+1 by omega, show n3+1-p3 = n3-p3+1 by omega]
  refine ⟨?_, fun i j k hi hj hk => ?_⟩
  · rw [flatMap_range'_length _ ((n2-p2+1)*(n1-p1+1)) _ _ (fun k => flatMap_range'_length _ _ _ _ (fun k => by simp))]; ring
  · have hlt : j*(n1-p1+1) + i < (n2-p2+1)*(n1-p1+1) := by
      have := lt2 (show i < n1-p1+1 by omega) (show j < n2-p2+1 by omega)
      rw [Nat.mul_comm (n2-p2+1), Nat.mul_comm j, Nat.add_comm]; exact this
    rw [show i + (n1-p1+1)*(j + (n2-p2+1)*k) = k*((n2-p2+1)*(n1-p1+1)) + (j*(n1-p1+1) + i) by ring,
      flatMap_range'_get _ ((n2-p2+1)*(n1-p1+1)) _ _ (fun k => flatMap_range'_length _ _ _ _ (fun k => by simp)) k _ (by omega) hlt,
      flatMap_range'_get _ (n1-p1+1) _ _ (fun k => by simp) j i (by omega) (by omega),
      range'_map_get _ _ _ _ (by omega), splineElm3, show p1 + i - 1 = i + p1 - 1 by omega, show p2 + j - 1 = j + p2 - 1 by omega, show p3 + k - 1 = k + p3 - 1 by omega]

/-! ### The nodes of an element are the basis functions which do not vanish on it -/

section
variable {K : Type} [Field K] [LinearOrder K] [IsStrictOrderedRing K]

/-- **C55** (curves, meaning). At every point `x` inside the knot interval of an element, exactly the basis functions listed as its nodes are non-zero. -/
theorem C55_curve_support (n p : Nat) (hp : 0 < p) (hn : p ≤ n) (t : Nat → K) (ht : Monotone t) (i : Nat) (hi : i + p ≤ n) (x : K) (h1 : t (i+p-1) < x) (h2 : x < t (i+p)) :
    ∃ e, (splineMNPC1 n p (knotSpans t (n+p)))[i]? = some e ∧ e.length = p ∧ ∀ v, v ∈ e ↔ bspline t p v x ≠ 0 := by
  have hs : i + p - 1 + 1 = i + p := by omega
  have hf : isSpan (knotSpans t (n+p)) (i+p-1) = true := by
    rw [isSpan_knots _ _ _ (by omega), hs, decide_eq_true_eq]; exact h1.trans h2
  have := (C55_curve n p hp hn (knotSpans t (n+p))).2 i hi
  rw [if_pos hf] at this
  refine ⟨_, this, by simp, fun v => ?_⟩
  rw [bspline_ne t ht (i+p-1) x h1 (by rw [hs]; exact h2) p v hp]
  simp only [List.mem_map, List.mem_range]
  constructor
  · rintro ⟨a, ha, rfl⟩; omega
  · intro h; exact ⟨v - i, by omega, by omega⟩

/-- **C55** (surfaces, meaning). At every point `(x, y)` inside an element, exactly the tensor product basis functions listed as its nodes are non-zero. -/
theorem C55_surface_support (n1 n2 p1 p2 : Nat) (hp1 : 0 < p1) (hp2 : 0 < p2) (hn1 : p1 ≤ n1) (hn2 : p2 ≤ n2) (t u : Nat → K) (ht : Monotone t) (hu : Monotone u)
    (i j : Nat) (hi : i + p1 ≤ n1) (hj : j + p2 ≤ n2) (x y : K) (hx1 : t (i+p1-1) < x) (hx2 : x < t (i+p1)) (hy1 : u (j+p2-1) < y) (hy2 : y < u (j+p2)) :
    ∃ e, (splineMNPC2 n1 n2 p1 p2 (knotSpans t (n1+p1)) (knotSpans u (n2+p2)))[i + (n1-p1+1)*j]? = some e ∧ e.length = p1*p2 ∧
      ∀ I J, I < n1 → (gridNode2 n1 I J ∈ e ↔ bspline t p1 I x * bspline u p2 J y ≠ 0) := by
  have hs1 : i + p1 - 1 + 1 = i + p1 := by omega
  have hs2 : j + p2 - 1 + 1 = j + p2 := by omega
  have hf1 : isSpan (knotSpans t (n1+p1)) (i+p1-1) = true := by
    rw [isSpan_knots _ _ _ (by omega), hs1, decide_eq_true_eq]; exact hx1.trans hx2
  have hf2 : isSpan (knotSpans u (n2+p2)) (j+p2-1) = true := by
    rw [isSpan_knots _ _ _ (by omega), hs2, decide_eq_true_eq]; exact hy1.trans hy2
  have := (C55_surface n1 n2 p1 p2 hp1 hp2 hn1 hn2 (knotSpans t (n1+p1)) (knotSpans u (n2+p2))).2 i j hi hj
  rw [hf1, hf2, if_pos (by rfl)] at this
  refine ⟨_, this, by rw [flatMap_range_length _ p1 _ (fun k _ => by simp), Nat.mul_comm], fun I J hI => ?_⟩
  rw [mul_ne_zero_iff, bspline_ne t ht (i+p1-1) x hx1 (by rw [hs1]; exact hx2) p1 I hp1, bspline_ne u hu (j+p2-1) y hy1 (by rw [hs2]; exact hy2) p2 J hp2]
  simp only [List.mem_flatMap, List.mem_map, List.mem_range]
  constructor
  · rintro ⟨b, hb, a, ha, e⟩
    obtain ⟨e1, e2⟩ := gridNode2_inj (by omega) hI e
    omega
  · intro h
    exact ⟨J - j, by omega, I - i, by omega, by congr 1 <;> omega⟩

/-- **C55** (volumes, meaning). -/
theorem C55_volume_support (n1 n2 n3 p1 p2 p3 : Nat) (hp1 : 0 < p1) (hp2 : 0 < p2) (hp3 : 0 < p3) (hn1 : p1 ≤ n1) (hn2 : p2 ≤ n2) (hn3 : p3 ≤ n3) (t u w : Nat → K)
    (ht : Monotone t) (hu : Monotone u) (hw : Monotone w) (i j k : Nat) (hi : i + p1 ≤ n1) (hj : j + p2 ≤ n2) (hk : k + p3 ≤ n3) (x y z : K)
    (hx1 : t (i+p1-1) < x) (hx2 : x < t (i+p1)) (hy1 : u (j+p2-1) < y) (hy2 : y < u (j+p2)) (hz1 : w (k+p3-1) < z) (hz2 : z < w (k+p3)) :
    ∃ e, (splineMNPC3 n1 n2 n3 p1 p2 p3 (knotSpans t (n1+p1)) (knotSpans u (n2+p2)) (knotSpans w (n3+p3)))[i + (n1-p1+1)*(j + (n2-p2+1)*k)]? = some e ∧ e.length = p1*p2*p3 ∧
      ∀ I J L, I < n1 → J < n2 → (gridNode3 n1 n2 I J L ∈ e ↔ bspline t p1 I x * bspline u p2 J y * bspline w p3 L z ≠ 0) := by
  have hs1 : i + p1 - 1 + 1 = i + p1 := by omega
  have hs2 : j + p2 - 1 + 1 = j + p2 := by omega
  have hs3 : k + p3 - 1 + 1 = k + p3 := by omega
  have hf1 : isSpan (knotSpans t (n1+p1)) (i+p1-1) = true := by
    rw [isSpan_knots _ _ _ (by omega), hs1, decide_eq_true_eq]; exact hx1.trans hx2
  have hf2 : isSpan (knotSpans u (n2+p2)) (j+p2-1) = true := by
    rw [isSpan_knots _ _ _ (by omega), hs2, decide_eq_true_eq]; exact hy1.trans hy2
  have hf3 : isSpan (knotSpans w (n3+p3)) (k+p3-1) = true := by
    rw [isSpan_knots _ _ _ (by omega), hs3, decide_eq_true_eq]; exact hz1.trans hz2
  have := (C55_volume n1 n2 n3 p1 p2 p3 hp1 hp2 hp3 hn1 hn2 hn3 (knotSpans t (n1+p1)) (knotSpans u (n2+p2)) (knotSpans w (n3+p3))).2 i j k hi hj hk
  rw [hf1, hf2, hf3, if_pos (by rfl)] at this
  refine ⟨_, this, ?_, fun I J L hI hJ => ?_⟩
  · rw [flatMap_range_length _ (p2*p1) _ (fun k _ => flatMap_range_length _ p1 _ (fun k _ => by simp))]; ring
  rw [mul_ne_zero_iff, mul_ne_zero_iff, bspline_ne t ht (i+p1-1) x hx1 (by rw [hs1]; exact hx2) p1 I hp1, bspline_ne u hu (j+p2-1) y hy1 (by rw [hs2]; exact hy2) p2 J hp2,
    bspline_ne w hw (k+p3-1) z hz1 (by rw [hs3]; exact hz2) p3 L hp3]
  simp only [List.mem_flatMap, List.mem_map, List.mem_range]
  constructor
  · rintro ⟨c, hc, b, hb, a, ha, e⟩
    obtain ⟨e1, e2, e3⟩ := gridNode3_inj (by omega) hI (by omega) hJ e
    omega
  · intro h
    exact ⟨L - k, by omega, J - j, by omega, I - i, by omega, by congr 1 <;> omega⟩

/-- **C55** (empty elements). An element one of whose knot intervals has zero length has no nodes. -/
theorem C55_empty (n1 n2 p1 p2 : Nat) (hp1 : 0 < p1) (hp2 : 0 < p2) (hn1 : p1 ≤ n1) (hn2 : p2 ≤ n2) (t u : Nat → K) (ht : Monotone t) (hu : Monotone u)
    (i j : Nat) (hi : i + p1 ≤ n1) (hj : j + p2 ≤ n2) :
    (splineMNPC2 n1 n2 p1 p2 (knotSpans t (n1+p1)) (knotSpans u (n2+p2)))[i + (n1-p1+1)*j]? = some [] ↔ t (i+p1-1) = t (i+p1) ∨ u (j+p2-1) = u (j+p2) := by
  rw [(C55_surface n1 n2 p1 p2 hp1 hp2 hn1 hn2 (knotSpans t (n1+p1)) (knotSpans u (n2+p2))).2 i j hi hj, isSpan_knots _ _ _ (by omega), isSpan_knots _ _ _ (by omega),
    show i + p1 - 1 + 1 = i + p1 by omega, show j + p2 - 1 + 1 = j + p2 by omega]
  have a : t (i+p1-1) ≤ t (i+p1) := ht (by omega)
  have b : u (j+p2-1) ≤ u (j+p2) := hu (by omega)
  rw [← Bool.decide_and]
  by_cases h : t (i+p1-1) < t (i+p1) ∧ u (j+p2-1) < u (j+p2)
  · rw [if_pos (decide_eq_true h)]
    refine ⟨fun hc => ?_, fun hc => ?_⟩
    · have h3 := congrArg List.length (Option.some.inj hc)
      rw [flatMap_range_length _ p1 _ (fun k _ => by simp)] at h3
      simp only [List.length_nil, Nat.mul_eq_zero] at h3
      omega
    · rcases hc with hc | hc
      · exact absurd h.1 (hc ▸ lt_irrefl _)
      · exact absurd h.2 (hc ▸ lt_irrefl _)
  · rw [if_neg (by simpa using h)]
    refine ⟨fun _ => ?_, fun _ => rfl⟩
    by_contra hc
    push Not at hc
    exact h ⟨lt_of_le_of_ne a hc.1, lt_of_le_of_ne b hc.2⟩
end

/-- A quadratic curve with a double interior knot: knots 0 0 0 1 1 2 2 2; the middle interval is empty. -/
example : splineMNPC1 5 3 (knotSpans (fun k => ([0, 0, 0, 1, 1, 2, 2, 2] : List Rat).getD k 2) 8) = [[0, 1, 2], [], [2, 3, 4]] := by decide +kernel

end IFEM.Props
