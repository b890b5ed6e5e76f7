import Verif.Spec.NodeVecFun
import Mathlib.Algebra.Order.Ring.Rat
import Mathlib.Algebra.Order.Ring.Abs
import Mathlib.Tactic.Linarith
import Mathlib.Tactic.Ring
import Mathlib.Algebra.Order.Field.Rat
/-!
# C95: Nodal fields as functions
-/
namespace IFEM.NVFun
open IFEM.Spec

variable {K : Type} [Field K] [LinearOrder K] [IsStrictOrderedRing K]

theorem equal_iff (a b : Pt K) (d : K) : equal a b d = true ↔ NearPt d a b := by
  unfold equal NearPt
  by_cases h1 : |a.x - b.x| ≤ d <;> by_cases h2 : |a.y - b.y| ≤ d <;> by_cases h3 : |a.z - b.z| ≤ d <;> simp [h1, h2, h3]

theorem near_symm {a b : Pt K} {d : K} (h : NearPt d a b) : NearPt d b a :=
  ⟨by rw [abs_sub_comm]; exact h.1, by rw [abs_sub_comm]; exact h.2.1, by rw [abs_sub_comm]; exact h.2.2⟩

theorem near_trans {a b c : Pt K} {d e : K} (h : NearPt d a b) (g : NearPt e b c) : NearPt (d + e) a c :=
  ⟨le_trans (abs_sub_le _ _ _) (add_le_add h.1 g.1), le_trans (abs_sub_le _ _ _) (add_le_add h.2.1 g.2.1), le_trans (abs_sub_le _ _ _) (add_le_add h.2.2 g.2.2)⟩

/-- Two points are regarded as the same key of the map exactly if they are near each other in all coordinates. -/
theorem C95_key (a b : Pt K) (d : K) (hd : 0 ≤ d) : (lessThan a b d = false ∧ lessThan b a d = false) ↔ NearPt d a b := by
  unfold lessThan NearPt
  simp only [abs_le]
  constructor
  · rintro ⟨h, g⟩
    by_cases z1 : a.z + d < b.z
    · simp [z1] at h
    by_cases z2 : b.z + d < a.z
    · simp [z2] at g
    have z3 : ¬ a.z - d > b.z := by intro k; apply z2; linarith
    have z4 : ¬ b.z - d > a.z := by intro k; apply z1; linarith
    simp only [z1, z2, z3, z4, if_false] at h g
    by_cases y1 : a.y + d < b.y
    · simp [y1] at h
    by_cases y2 : b.y + d < a.y
    · simp [y2] at g
    have y3 : ¬ a.y - d > b.y := by intro k; apply y2; linarith
    have y4 : ¬ b.y - d > a.y := by intro k; apply y1; linarith
    simp only [y1, y2, y3, y4, if_false] at h g
    by_cases x1 : a.x + d < b.x
    · simp [x1] at h
    by_cases x2 : b.x + d < a.x
    · simp [x2] at g
    simp only [not_lt] at *
    refine ⟨⟨?_, ?_⟩, ⟨?_, ?_⟩, ?_, ?_⟩ <;> linarith
  · rintro ⟨⟨x1, x2⟩, ⟨y1, y2⟩, z1, z2⟩
    constructor
    · rw [if_neg (by simp only [not_lt]; linarith), if_neg (by simp only [gt_iff_lt, not_lt]; linarith), if_neg (by simp only [not_lt]; linarith),
        if_neg (by simp only [gt_iff_lt, not_lt]; linarith), if_neg (by simp only [not_lt]; linarith)]; simp
    · rw [if_neg (by simp only [not_lt]; linarith), if_neg (by simp only [gt_iff_lt, not_lt]; linarith), if_neg (by simp only [not_lt]; linarith),
        if_neg (by simp only [gt_iff_lt, not_lt]; linarith), if_neg (by simp only [not_lt]; linarith)]; simp

theorem search_some (s : Func K) (X : Pt K) (n : Int) (h : search s X = some n) : ∃ p, NodeOf s.patches p ∧ p.2 = n ∧ NearPt s.eps X p.1 := by
  unfold search at h
  obtain ⟨pch, h1, h2⟩ := List.exists_of_findSome?_eq_some h
  obtain ⟨p, h3, h4⟩ := List.exists_of_findSome?_eq_some h2
  split at h4
  · rename_i he
    exact ⟨p, ⟨pch, h1, h3⟩, by simpa using h4, (equal_iff _ _ _).mp he⟩
  · cases h4

theorem search_none (s : Func K) (X : Pt K) : search s X = none ↔ ∀ p, NodeOf s.patches p → ¬ NearPt s.eps X p.1 := by
  unfold search NodeOf
  simp only [List.findSome?_eq_none_iff]
  constructor
  · rintro h p ⟨pch, h1, h2⟩ hn
    have := h pch h1 p h2
    rw [if_pos ((equal_iff _ _ _).mpr hn)] at this
    cases this
  · intro h pch h1 p h2
    rw [if_neg (fun e => h p ⟨pch, h1, h2⟩ ((equal_iff _ _ _).mp e))]

/-- All points in the map are near the node which they are mapped to. -/
def Ok (s : Func K) (m : Cache K) : Prop := ∀ c ∈ m, ∃ p, NodeOf s.patches p ∧ p.2 = c.2 ∧ NearPt s.eps c.1 p.1

theorem byCoord_ok (find : Cache K → Pt K → Option Int) (s : Func K) (m : Cache K) (hm : Ok s m) (q : Query K) : Ok s (byCoord find s m q).1 := by
  unfold byCoord
  split
  · exact hm
  · split
    · rename_i n e
      intro c hc
      simp only [List.mem_append, List.mem_singleton] at hc
      rcases hc with hc | hc
      · exact hm c hc
      · subst hc; exact search_some s q.1 n e
    · exact hm

theorem index_cache (find : Cache K → Pt K → Option Int) (s : Func K) (m : Cache K) (q : Query K) :
    (getPointIndex find s m q).1 = m ∨ getPointIndex find s m q = byCoord find s m q := by
  unfold getPointIndex
  split
  · split
    · split
      · exact Or.inl rfl
      · split
        · exact Or.inl rfl
        · split
          · exact Or.inl rfl
          · exact Or.inr rfl
    · exact Or.inr rfl
  · exact Or.inr rfl

theorem eval_cache (find : Cache K → Pt K → Option Int) (s : Func K) (m : Cache K) (q : Query K) : (evaluate find s m q).1 = (getPointIndex find s m q).1 := by
  unfold evaluate
  simp only
  split
  · rfl
  · split
    · rfl
    · split <;> rfl

theorem eval_ok (find : Cache K → Pt K → Option Int) (s : Func K) (m : Cache K) (hm : Ok s m) (q : Query K) : Ok s (evaluate find s m q).1 := by
  rw [eval_cache]
  rcases index_cache find s m q with h | h
  · rw [h]; exact hm
  · rw [h]; exact byCoord_ok find s m hm q

theorem cache_ok (find : Cache K → Pt K → Option Int) (s : Func K) (l : List (Query K)) (m : Cache K) (hm : Ok s m) : Ok s (cacheAfter find s m l) := by
  induction l generalizing m with
  | nil => exact hm
  | cons q l ih => exact ih _ (eval_ok find s m hm q)

/-- Whatever was evaluated before: a point without node index gives the number of a node within the sum of both tolerances, or zero; zero is the result only if
there is no node within the tolerance of the search. -/
theorem C95_found (find : Cache K → Pt K → Option Int) (s : Func K) (hf : FindOk s.tau find) (ht : 0 ≤ s.tau) (l : List (Query K)) (X : Pt K) :
    let r := (getPointIndex find s (cacheAfter find s [] l) (X, none)).2
    (r = (0, 0) ∧ ∀ p, NodeOf s.patches p → ¬ NearPt s.eps X p.1) ∨ ∃ p, NodeOf s.patches p ∧ r = (0, p.2) ∧ NearPt (s.tau + s.eps) X p.1 := by
  intro r
  have hm := cache_ok find s l [] (by intro c hc; cases hc)
  generalize hmm : cacheAfter find s [] l = m at hm
  have hr : r = (byCoord find s m (X, none)).2 := by show (getPointIndex find s (cacheAfter find s [] l) (X, none)).2 = _; rw [hmm]; rfl
  rw [hr]
  unfold byCoord
  cases e : find m X with
  | some n =>
    right
    obtain ⟨c, hc, hn, k⟩ := hf m X n e
    obtain ⟨p, hp, hpn, hnear⟩ := hm c hc
    exact ⟨p, hp, by simp [hpn, hn], near_trans (near_symm ((C95_key _ _ _ ht).mp k)) hnear⟩
  | none =>
    cases e' : search s X with
    | some n =>
      right
      obtain ⟨p, hp, hpn, hnear⟩ := search_some s X n e'
      refine ⟨p, hp, by simp [hpn], ?_⟩
      exact near_trans (d := s.tau) (a := X) (b := X) ⟨by simpa using ht, by simpa using ht, by simpa using ht⟩ hnear
    | none => left; exact ⟨rfl, (search_none s X).mp e'⟩

/-- If different nodes are further apart than the tolerance of the map and twice that of the search, a point at a node gives the number of this node, whatever
was evaluated before. -/
theorem C95_node (find : Cache K → Pt K → Option Int) (s : Func K) (hf : FindOk s.tau find) (ht : 0 ≤ s.tau)
    (hsep : ∀ p p', NodeOf s.patches p → NodeOf s.patches p' → NearPt (s.tau + (s.eps + s.eps)) p.1 p'.1 → p.2 = p'.2)
    (l : List (Query K)) (p : Pt K × Int) (hp : NodeOf s.patches p) (X : Pt K) (hX : NearPt s.eps X p.1) :
    (getPointIndex find s (cacheAfter find s [] l) (X, none)).2 = (0, p.2) := by
  rcases C95_found find s hf ht l X with ⟨-, h⟩ | ⟨p', hp', h, hn⟩
  · exact absurd hX (h p hp)
  · rw [h]
    have := hsep p' p hp' hp (by
      have := near_trans (near_symm hn) hX
      rw [show s.tau + (s.eps + s.eps) = s.tau + s.eps + s.eps by ring]; exact this)
    rw [this]

/-- The first point gives the first node within the tolerance, in the order of the patches and their nodes. -/
theorem C95_first (find : Cache K → Pt K → Option Int) (s : Func K) (hf : FindOk s.tau find) (X : Pt K) :
    (getPointIndex find s [] (X, none)).2 = (0, ((s.patches.flatten.find? fun p => decide (NearPt s.eps X p.1)).map (·.2)).getD 0) := by
  have e : find [] X = none := by
    cases e : find [] X with
    | none => rfl
    | some n => obtain ⟨p, hp, -⟩ := hf _ _ _ e; cases hp
  have key : ∀ l : List (Pt K × Int), (l.findSome? fun nod => if equal X nod.1 s.eps then some nod.2 else none) = (l.find? fun p => decide (NearPt s.eps X p.1)).map (·.2) := by
    intro l
    induction l with
    | nil => rfl
    | cons p l ih =>
      rw [List.findSome?_cons, List.find?_cons]
      by_cases h : NearPt s.eps X p.1
      · rw [if_pos ((equal_iff _ _ _).mpr h)]; simp [h]
      · rw [if_neg (fun k => h ((equal_iff _ _ _).mp k))]; simp [h, ih]
  have hs : search s X = (s.patches.flatten.find? fun p => decide (NearPt s.eps X p.1)).map (·.2) := by
    unfold search
    generalize s.patches = L
    induction L with
    | nil => rfl
    | cons a L ih =>
      rw [List.findSome?_cons, key, List.flatten_cons, List.find?_append, ih]
      cases a.find? fun p => decide (NearPt s.eps X p.1) <;> simp
  show (byCoord find s [] (X, none)).2 = _
  unfold byCoord
  rw [e, hs]
  cases s.patches.flatten.find? fun p => decide (NearPt s.eps X p.1) <;> simp

/-- A point with a positive node index gives this index without a map, and otherwise the index of the map if there is one; the earlier points do not
matter.  If the map has no such index, the coordinates are used. -/
theorem C95_index (find : Cache K → Pt K → Option Int) (s : Func K) (m : Cache K) (X : Pt K) (i : Int) (hi : 0 < i) :
    (s.idMap = none ∨ s.idMap = some [] → getPointIndex find s m (X, some i) = (m, (i, i))) ∧
    (∀ l v, s.idMap = some l → l.lookup i = some v → getPointIndex find s m (X, some i) = (m, (i, v))) ∧
    (∀ l, s.idMap = some l → l ≠ [] → l.lookup i = none →
      (getPointIndex find s m (X, some i)).2.2 = (getPointIndex find s m (X, none)).2.2) := by
  have e : getPointIndex find s m (X, some i) = match s.idMap with
      | none => (m, (i, i))
      | some l =>
        if l = [] then (m, (i, i)) else
        match l.lookup i with
        | some v => (m, (i, v))
        | none => byCoord find s m (X, some i) := by
    unfold getPointIndex
    simp only [if_pos hi]
    cases s.idMap <;> rfl
  refine ⟨?_, ?_, ?_⟩
  · rintro (h | h) <;> rw [e, h]
    simp
  · intro l v h hv
    have hl : l ≠ [] := by rintro rfl; cases hv
    rw [e, h]; simp only [if_neg hl, hv]
  · intro l h hl hv
    rw [e, h]; simp only [if_neg hl, hv]
    show (byCoord find s m (X, some i)).2.2 = (byCoord find s m (X, none)).2.2
    unfold byCoord
    cases find m X with
    | some n => rfl
    | none => cases search s X <;> rfl

/-- The value is that of the node with the index, with zero in place of missing components.  It is zero if there is no such node, no vector, or the vector
is too short. -/
theorem C95_value (find : Cache K → Pt K → Option Int) (s : Func K) (m : Cache K) (q : Query K) :
    (∀ v n : _, s.value = some v → (getPointIndex find s m q).2.2 = Int.ofNat n → 1 ≤ n → s.nf * n ≤ v.length →
      (evaluate find s m q).2 = ⟨nodeVal v s.nf n 0, nodeVal v s.nf n 1, nodeVal v s.nf n 2⟩) ∧
    ((getPointIndex find s m q).2.2 < 1 ∨ s.value = none ∨ (∃ v, s.value = some v ∧ (v.length : Int) < s.nf * (getPointIndex find s m q).2.2) →
      (evaluate find s m q).2 = ⟨0, 0, 0⟩) := by
  unfold evaluate
  generalize getPointIndex find s m q = r
  constructor
  · intro v n hv hr hn hl
    rw [hv]; simp only
    have e : r.2.2 - 1 = Int.ofNat (n - 1) := by rw [hr]; simp; omega
    have e2 : s.nf * (n - 1) + s.nf = s.nf * n := by
      obtain ⟨k, rfl⟩ : ∃ k, n = k + 1 := ⟨n - 1, by omega⟩
      rw [Nat.add_sub_cancel, Nat.mul_add, Nat.mul_one]
    rw [e]
    simp only [Int.ofNat_eq_natCast, Int.toNat_natCast]
    rw [if_neg (by omega), if_neg (by omega)]
    rfl
  · intro h
    cases hv : s.value with
    | none => rfl
    | some v =>
      simp only
      split
      · rfl
      · rename_i h0
        rcases h with h | h | ⟨v', h, hl⟩
        · omega
        · rw [hv] at h; cases h
        · rw [hv] at h; cases h
          obtain ⟨n, hn⟩ : ∃ n : Nat, r.2.2 = (n : Int) + 1 := ⟨(r.2.2 - 1).toNat, by omega⟩
          rw [hn] at hl ⊢
          rw [if_pos]
          simp only [add_sub_cancel_right, Int.toNat_natCast]
          have : (v.length : Int) < ((s.nf * n + s.nf : Nat) : Int) := by push_cast; linarith [mul_add (s.nf : Int) n 1]
          omega

/-- A function that says to be zero without an index map has the value zero in all points, whatever was evaluated before; there must be values per node. -/
theorem C95_zero (find : Cache K → Pt K → Option Int) (s : Func K) (m : Cache K) (q : Query K) (h : isZero s = true) (hm : s.idMap = none) (hnf : 0 < s.nf) :
    (evaluate find s m q).2 = ⟨0, 0, 0⟩ := by
  unfold isZero at h
  rw [hm] at h
  apply (C95_value find s m q).2
  cases hv : s.value with
  | none => right; left; rfl
  | some v =>
    rw [hv] at h
    simp at h
    subst h
    by_cases h1 : (getPointIndex find s m q).2.2 < 1
    · left; exact h1
    · right; right
      refine ⟨[], rfl, ?_⟩
      have : (0:Int) < s.nf := by exact_mod_cast hnf
      have := mul_pos this (show (0:Int) < (getPointIndex find s m q).2.2 by omega)
      simpa using this

/-- A search which finds the first fitting entry. -/
def exFind (tau : ℚ) (m : Cache ℚ) (X : Pt ℚ) : Option Int := (m.find? fun p => !lessThan p.1 X tau && !lessThan X p.1 tau).map (·.2)

theorem exFind_ok (tau : ℚ) : FindOk tau (exFind tau) := by
  intro m X n h
  unfold exFind at h
  rw [Option.map_eq_some_iff] at h
  obtain ⟨p, hp, hn⟩ := h
  have h1 := List.find?_some hp
  simp at h1
  exact ⟨p, List.mem_of_find?_eq_some hp, hn, h1⟩

/-- Nodes 1 and 2 are `5·10⁻⁵` apart, and node 3 is at 1. -/
def exFunc : Func ℚ := ⟨1/1000000, 1/10000, [[(⟨0, 0, 0⟩, 1), (⟨1/20000, 0, 0⟩, 2)], [(⟨1, 0, 0⟩, 3)]], none, 2, some [10, 11, 20, 21, 30, 31]⟩

/-- F189: nodes nearer than the tolerance of the map are mixed up: at node 2 the value is that of node 1 if node 1 was evaluated before; a point that is at no
node then gives a value, too. -/
theorem C95_mixed_up :
    (evaluate (exFind (1/10000)) exFunc [] (⟨1/20000, 0, 0⟩, none)).2 = ⟨20, 21, 0⟩ ∧
    (evaluate (exFind (1/10000)) exFunc (cacheAfter (exFind (1/10000)) exFunc [] [(⟨0, 0, 0⟩, none)]) (⟨1/20000, 0, 0⟩, none)).2 = ⟨10, 11, 0⟩ ∧
    (evaluate (exFind (1/10000)) exFunc [] (⟨0, 1/20000, 0⟩, none)).2 = ⟨0, 0, 0⟩ ∧
    (evaluate (exFind (1/10000)) exFunc (cacheAfter (exFind (1/10000)) exFunc [] [(⟨0, 0, 0⟩, none)]) (⟨0, 1/20000, 0⟩, none)).2 = ⟨10, 11, 0⟩ := by decide +kernel

/-- F190: nodes found by their coordinates are not mapped: node 3 has index 1 in the vector, but by its coordinates it has index 3. -/
theorem C95_not_mapped :
    (getPointIndex (exFind (1/10000)) { exFunc with idMap := some [(3, 1)] } [] (⟨1, 0, 0⟩, some 3)).2 = (3, 1) ∧
    (getPointIndex (exFind (1/10000)) { exFunc with idMap := some [(3, 1)] } [] (⟨1, 0, 0⟩, none)).2 = (0, 3) := by decide +kernel

/-- Nodes 1 and 3 only: different nodes are far apart. -/
def exFar : Func ℚ := { exFunc with patches := [[(⟨0, 0, 0⟩, 1)], [(⟨1, 0, 0⟩, 3), (⟨0, 0, 0⟩, 1)]] }

example : (∀ p p', NodeOf exFar.patches p → NodeOf exFar.patches p' → NearPt (exFar.tau + (exFar.eps + exFar.eps)) p.1 p'.1 → p.2 = p'.2) ∧
    (getPointIndex (exFind exFar.tau) exFar (cacheAfter (exFind exFar.tau) exFar [] [(⟨0, 0, 0⟩, none)]) (⟨1, 0, 0⟩, none)).2 = (0, 3) := by
  constructor
  · rintro p p' ⟨c, hc, h⟩ ⟨c', hc', h'⟩ hn
    simp [exFar] at hc hc'
    rcases hc with rfl | rfl <;> rcases hc' with rfl | rfl <;> simp at h h' <;> (try rcases h with h | h) <;> (try rcases h' with h' | h') <;> subst_vars <;>
      first
        | rfl
        | (exfalso; revert hn; unfold NearPt; simp only [exFar, exFunc]; decide +kernel)
  · decide +kernel

end IFEM.NVFun
