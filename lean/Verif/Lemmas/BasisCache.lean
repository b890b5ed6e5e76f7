import Verif.Model.BasisCache
import Mathlib.Tactic.Ring
import Mathlib.Tactic.Linarith

/-! Lemmas on the basis function cache: the order of the points of a grid and the invariant of the cache. -/

namespace IFEM.BCache

variable {K V : Type} [Field K]

theorem flatMap_get {α β : Type} (f : α → List β) (a : Nat) (hf : ∀ v, (f v).length = a) :
    ∀ (l : List α) (r x : Nat) (v : α), l[r]? = some v → x < a → (l.flatMap f)[r * a + x]? = (f v)[x]?
  | [], r, x, v, h, _ => by simp at h
  | w :: t, 0, x, v, h, hx => by
    simp only [List.getElem?_cons_zero, Option.some.injEq] at h
    subst h
    rw [List.flatMap_cons, List.getElem?_append_left (by rw [hf]; omega)]
    congr 1; omega
  | w :: t, r + 1, x, v, h, hx => by
    rw [List.getElem?_cons_succ] at h
    rw [List.flatMap_cons, List.getElem?_append_right (by rw [hf, Nat.add_one_mul]; omega), hf]
    have : (r + 1) * a + x - a = r * a + x := by rw [Nat.add_one_mul]; omega
    rw [this]
    exact flatMap_get f a hf t r x v h hx

theorem flatMap_len {α β : Type} (f : α → List β) (a : Nat) (hf : ∀ v, (f v).length = a) (l : List α) :
    (l.flatMap f).length = l.length * a := by
  induction l with
  | nil => simp
  | cons w t ih => rw [List.flatMap_cons, List.length_append, hf, ih, List.length_cons, Nat.add_one_mul]; omega

theorem grid2_get (p q : List K) (r x : Nat) (u v : K) (hv : q[r]? = some v) (hu : p[x]? = some u) :
    (grid [p, q])[r * p.length + x]? = some [u, v] := by
  have hx : x < p.length := (List.getElem?_eq_some_iff.1 hu).1
  unfold grid
  rw [flatMap_get _ p.length (by simp) q r x v hv hx]
  simp [hu]

theorem grid2_len (p q : List K) : (grid [p, q]).length = q.length * p.length := by
  unfold grid; rw [flatMap_len _ p.length (by simp)]

theorem grid3_get (p q s : List K) (z r x : Nat) (u v w : K) (hw : s[z]? = some w) (hv : q[r]? = some v)
    (hu : p[x]? = some u) :
    (grid [p, q, s])[(z * q.length + r) * p.length + x]? = some [u, v, w] := by
  have hx : x < p.length := (List.getElem?_eq_some_iff.1 hu).1
  have hr : r < q.length := (List.getElem?_eq_some_iff.1 hv).1
  unfold grid
  have hl : ∀ w : K, (q.flatMap fun v => p.map fun u => [u, v, w]).length = q.length * p.length := by
    intro w; rw [flatMap_len _ p.length (by simp)]
  have e : (z * q.length + r) * p.length + x = z * (q.length * p.length) + (r * p.length + x) := by ring
  have hb : r * p.length + x < q.length * p.length := by
    calc r * p.length + x < r * p.length + p.length := by omega
      _ = (r + 1) * p.length := by ring
      _ ≤ q.length * p.length := Nat.mul_le_mul_right _ hr
  rw [e, flatMap_get _ (q.length * p.length) hl s z _ w hw hb,
      flatMap_get _ p.length (by simp) q r x v hv hx]
  simp [hu]

theorem grid3_len (p q s : List K) : (grid [p, q, s]).length = s.length * (q.length * p.length) := by
  unfold grid; rw [flatMap_len _ (q.length * p.length) (by intro w; rw [flatMap_len _ p.length (by simp)])]

theorem gaussPar_len (xi : List K) : ∀ k : List K, (gaussPar xi k).length = (k.length - 1) * xi.length
  | [] => by simp [gaussPar]
  | [u] => by simp [gaussPar]
  | u :: v :: t => by
    have := gaussPar_len xi (v :: t)
    simp only [gaussPar, List.length_append, List.length_map, this, List.length_cons, Nat.add_sub_cancel,
      Nat.add_one_mul]
    omega

theorem gaussPar_get (xi : List K) : ∀ (k : List K) (e g : Nat) (u v x : K), k[e]? = some u → k[e + 1]? = some v →
    xi[g]? = some x → (gaussPar xi k)[e * xi.length + g]? = some ((1 / 2) * ((v - u) * x + v + u))
  | [], e, g, u, v, x, hu, _, _ => by simp at hu
  | [w], e, g, u, v, x, _, hv, _ => by simp at hv
  | a :: b :: t, 0, g, u, v, x, hu, hv, hx => by
    have hg : g < xi.length := (List.getElem?_eq_some_iff.1 hx).1
    simp only [List.getElem?_cons_zero, Option.some.injEq] at hu
    simp only [Nat.zero_add, List.getElem?_cons_succ, List.getElem?_cons_zero, Option.some.injEq] at hv
    subst hu hv
    rw [gaussPar, List.getElem?_append_left (by simp; exact hg)]
    simp [hx]
  | a :: b :: t, e + 1, g, u, v, x, hu, hv, hx => by
    rw [List.getElem?_cons_succ] at hu hv
    rw [gaussPar, List.getElem?_append_right (by rw [List.length_map, Nat.add_one_mul]; omega), List.length_map]
    have : (e + 1) * xi.length + g - xi.length = e * xi.length + g := by rw [Nat.add_one_mul]; omega
    rw [this]
    exact gaussPar_get xi (b :: t) e g u v x hu hv hx

/-- The point `calculatePt` evaluates at. -/
def point (P : Patch K V) (q : Quad K) (el gp : Nat) : Option (List K) :=
  match P.kind with
  | .spline => splinePt P q el gp
  | _ => lagPt P q gp

/-- The points `calculateAll` evaluates at. -/
def pts (P : Patch K V) (q : Quad K) : List (List K) :=
  match P.kind with
  | .spline => grid q.gpar
  | _ => grid (q.xg.map (·.getD []))

/-- The values kept for a quadrature match its points: right number, and a point is kept at its index. -/
structure QOK (P : Patch K V) (q : Quad K) : Prop where
  tot : total P q = (pts P q).length
  idx : ∀ el gp i pt, index P q el gp = some i → point P q el gp = some pt → (pts P q)[i]? = some pt

/-- The shapes of the quadratures of surfaces and volumes. -/
def Shape (P : Patch K V) (q : Quad K) : Prop :=
  q.ng.length = P.knots.length ∧ (P.knots.length = 2 ∨ P.knots.length = 3) ∧
  (P.kind = .spline → q.gpar.length = P.knots.length ∧
    ∀ d, d < P.knots.length → (q.gpar.getD d []).length = P.nel.getD d 0 * q.ng.getD d 0) ∧
  (P.kind ≠ .spline → q.xg.length = P.knots.length ∧
    ∀ d, d < P.knots.length → ((q.xg.getD d none).getD []).length = q.ng.getD d 0)

theorem len2 {α : Type} {l : List α} (h : l.length = 2) : ∃ a b, l = [a, b] := by
  match l, h with
  | [a, b], _ => exact ⟨a, b, rfl⟩

theorem len3 {α : Type} {l : List α} (h : l.length = 3) : ∃ a b c, l = [a, b, c] := by
  match l, h with
  | [a, b, c], _ => exact ⟨a, b, c, rfl⟩

theorem qok_spline2 {P : Patch K V} {q : Quad K} (hs : P.kind = .spline) (hd : P.knots.length = 2)
    (h : Shape P q) : QOK P q := by
  obtain ⟨h1, -, h3, -⟩ := h
  obtain ⟨h3, h4⟩ := h3 hs
  rw [hd] at h1 h3 h4
  obtain ⟨k0, k1, hk⟩ := len2 hd
  obtain ⟨n0, n1, hn⟩ := len2 h1
  obtain ⟨p0, p1, hp⟩ := len2 h3
  have l0 := h4 0 (by omega)
  have l1 := h4 1 (by omega)
  simp [hk, hn, hp, Patch.nel] at l0 l1
  constructor
  · simp [total, hs, pts, hk, hn, hp, Patch.nel, grid2_len, l0, l1]; ring
  · intro el gp i pt hi hp'
    simp only [index, hs, Patch.nel, hk, List.map_cons, List.map_nil, elmIndex, gpIndex, hn, Option.bind_eq_some_iff] at hi
    obtain ⟨e, he, g, hg, hi⟩ := hi
    simp only [point, hs, splinePt, Patch.nel, hk, List.map_cons, List.map_nil, elmIndex, gpIndex, hn, he, hg,
      Option.bind_some, List.length_cons, List.length_nil] at hp'
    split at he
    · cases he
    cases he
    split at hg
    · cases hg
    cases hg
    simp only [gridIndex, Option.some.injEq] at hi
    have : List.range (0 + 1 + 1) = [0, 1] := rfl
    simp only [this, List.mapM_cons, List.mapM_nil, getParam, hp, hn, Option.pure_def, Option.bind_eq_bind, Option.bind_eq_some_iff,
      List.getElem?_cons_zero, List.getElem?_cons_succ, Option.bind_some, List.getD_cons_zero, List.getD_cons_succ,
      Option.some.injEq] at hp'
    obtain ⟨u, hu, -, ⟨v, hv, -, rfl, rfl⟩, rfl⟩ := hp'
    have := grid2_get p0 p1 _ _ u v hv hu
    simp only [pts, hs, hp]
    rw [← this, ← hi, l0]
    congr 1; ring

theorem qok_spline3 {P : Patch K V} {q : Quad K} (hs : P.kind = .spline) (hd : P.knots.length = 3)
    (h : Shape P q) : QOK P q := by
  obtain ⟨h1, -, h3, -⟩ := h
  obtain ⟨h3, h4⟩ := h3 hs
  rw [hd] at h1 h3 h4
  obtain ⟨k0, k1, k2, hk⟩ := len3 hd
  obtain ⟨n0, n1, n2, hn⟩ := len3 h1
  obtain ⟨p0, p1, p2, hp⟩ := len3 h3
  have l0 := h4 0 (by omega)
  have l1 := h4 1 (by omega)
  have l2 := h4 2 (by omega)
  simp [hk, hn, hp, Patch.nel] at l0 l1 l2
  constructor
  · simp [total, hs, pts, hk, hn, hp, Patch.nel, grid3_len, l0, l1, l2]; ring
  · intro el gp i pt hi hp'
    simp only [index, hs, Patch.nel, hk, List.map_cons, List.map_nil, elmIndex, gpIndex, hn, Option.bind_eq_some_iff] at hi
    obtain ⟨e, he, g, hg, hi⟩ := hi
    simp only [point, hs, splinePt, Patch.nel, hk, List.map_cons, List.map_nil, elmIndex, gpIndex, hn, he, hg,
      Option.bind_some, List.length_cons, List.length_nil] at hp'
    split at he
    · cases he
    cases he
    split at hg
    · cases hg
    cases hg
    simp only [gridIndex, Option.some.injEq] at hi
    have : List.range (0 + 1 + 1 + 1) = [0, 1, 2] := rfl
    simp only [this, List.mapM_cons, List.mapM_nil, getParam, hp, hn, Option.pure_def, Option.bind_eq_bind, Option.bind_eq_some_iff,
      List.getElem?_cons_zero, List.getElem?_cons_succ, Option.bind_some, List.getD_cons_zero, List.getD_cons_succ,
      Option.some.injEq] at hp'
    obtain ⟨u, hu, -, ⟨v, hv, -, ⟨w, hw, -, rfl, rfl⟩, rfl⟩, rfl⟩ := hp'
    have := grid3_get p0 p1 p2 _ _ _ u v w hw hv hu
    simp only [pts, hs, hp]
    rw [← this, ← hi, l0, l1]
    congr 1; ring

theorem qok_lag2 {P : Patch K V} {q : Quad K} (hs : P.kind ≠ .spline) (hd : P.knots.length = 2)
    (h : Shape P q) : QOK P q := by
  obtain ⟨h1, -, -, h3⟩ := h
  obtain ⟨h3, h4⟩ := h3 hs
  rw [hd] at h1 h3 h4
  obtain ⟨k0, k1, hk⟩ := len2 hd
  obtain ⟨n0, n1, hn⟩ := len2 h1
  obtain ⟨p0, p1, hp⟩ := len2 h3
  have l0 := h4 0 (by omega)
  have l1 := h4 1 (by omega)
  simp [hn, hp] at l0 l1
  have e1 : total P q = q.ng.prod := by unfold total; cases h : P.kind <;> first | rfl | exact absurd h hs
  have e2 : pts P q = grid (q.xg.map (·.getD [])) := by
    unfold pts; cases h : P.kind <;> first | rfl | exact absurd h hs
  constructor
  · rw [e1, e2]; simp [hn, hp, grid2_len, l0, l1]; ring
  · intro el gp i pt hi hp'
    have e3 : index P q el gp = some gp := by unfold index; cases h : P.kind <;> first | rfl | exact absurd h hs
    have e4 : point P q el gp = lagPt P q gp := by
      unfold point; cases h : P.kind <;> first | rfl | exact absurd h hs
    rw [e3] at hi
    cases hi
    rw [e4] at hp'
    simp only [lagPt, hk, gpIndex, hn, Option.bind_eq_some_iff, List.length_cons, List.length_nil] at hp'
    obtain ⟨g, hg, hp'⟩ := hp'
    split at hg
    · cases hg
    cases hg
    have : List.range (0 + 1 + 1) = [0, 1] := rfl
    simp only [this, List.mapM_cons, List.mapM_nil, hp, Option.pure_def, Option.bind_eq_bind, Option.bind_eq_some_iff,
      List.getElem?_cons_zero, List.getElem?_cons_succ, Option.bind_some, List.getD_cons_zero, List.getD_cons_succ,
      Option.some.injEq, id] at hp'
    obtain ⟨u, ⟨x0, rfl, hu⟩, -, ⟨v, ⟨x1, rfl, hv⟩, -, rfl, rfl⟩, rfl⟩ := hp'
    have := grid2_get x0 x1 _ _ u v hv hu
    rw [e2]
    simp only [hp, List.map_cons, List.map_nil, Option.getD_some]
    rw [← this]
    simp at l0
    rw [l0]
    congr 1
    rw [Nat.mul_comm]; exact (Nat.div_add_mod gp n0).symm

theorem qok_lag3 {P : Patch K V} {q : Quad K} (hs : P.kind ≠ .spline) (hd : P.knots.length = 3)
    (h : Shape P q) : QOK P q := by
  obtain ⟨h1, -, -, h3⟩ := h
  obtain ⟨h3, h4⟩ := h3 hs
  rw [hd] at h1 h3 h4
  obtain ⟨k0, k1, k2, hk⟩ := len3 hd
  obtain ⟨n0, n1, n2, hn⟩ := len3 h1
  obtain ⟨p0, p1, p2, hp⟩ := len3 h3
  have l0 := h4 0 (by omega)
  have l1 := h4 1 (by omega)
  have l2 := h4 2 (by omega)
  simp [hn, hp] at l0 l1 l2
  have e1 : total P q = q.ng.prod := by unfold total; cases h : P.kind <;> first | rfl | exact absurd h hs
  have e2 : pts P q = grid (q.xg.map (·.getD [])) := by
    unfold pts; cases h : P.kind <;> first | rfl | exact absurd h hs
  constructor
  · rw [e1, e2]; simp [hn, hp, grid3_len, l0, l1, l2]; ring
  · intro el gp i pt hi hp'
    have e3 : index P q el gp = some gp := by unfold index; cases h : P.kind <;> first | rfl | exact absurd h hs
    have e4 : point P q el gp = lagPt P q gp := by
      unfold point; cases h : P.kind <;> first | rfl | exact absurd h hs
    rw [e3] at hi
    cases hi
    rw [e4] at hp'
    simp only [lagPt, hk, gpIndex, hn, Option.bind_eq_some_iff, List.length_cons, List.length_nil] at hp'
    obtain ⟨g, hg, hp'⟩ := hp'
    split at hg
    · cases hg
    cases hg
    have : List.range (0 + 1 + 1 + 1) = [0, 1, 2] := rfl
    simp only [this, List.mapM_cons, List.mapM_nil, hp, Option.pure_def, Option.bind_eq_bind, Option.bind_eq_some_iff,
      List.getElem?_cons_zero, List.getElem?_cons_succ, Option.bind_some, List.getD_cons_zero, List.getD_cons_succ,
      Option.some.injEq, id] at hp'
    obtain ⟨u, ⟨x0, rfl, hu⟩, -, ⟨v, ⟨x1, rfl, hv⟩, -, ⟨w, ⟨x2, rfl, hw⟩, -, rfl, rfl⟩, rfl⟩, rfl⟩ := hp'
    have := grid3_get x0 x1 x2 _ _ _ u v w hw hv hu
    rw [e2]
    simp only [hp, List.map_cons, List.map_nil, Option.getD_some]
    rw [← this]
    simp at l0 l1
    rw [l0, l1]
    congr 1
    have a1 := Nat.div_add_mod gp n0
    have a2 := Nat.div_add_mod (gp / n0) n1
    rw [Nat.div_div_eq_div_mul] at a2
    calc gp = n0 * (gp / n0) + gp % n0 := a1.symm
      _ = n0 * (n1 * (gp / (n0 * n1)) + gp / n0 % n1) + gp % n0 := by rw [a2]
      _ = _ := by ring

theorem qok {P : Patch K V} {q : Quad K} (h : Shape P q) : QOK P q := by
  by_cases hs : P.kind = .spline
  · rcases h.2.1 with hd | hd
    · exact qok_spline2 hs hd h
    · exact qok_spline3 hs hd h
  · rcases h.2.1 with hd | hd
    · exact qok_lag2 hs hd h
    · exact qok_lag3 hs hd h

end IFEM.BCache
