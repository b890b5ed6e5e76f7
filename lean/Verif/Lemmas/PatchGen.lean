import Verif.Model.PatchGen
import Verif.Spec.PatchGen
import Verif.Lemmas.BasisCache
import Mathlib.Algebra.Order.Field.Basic
import Mathlib.Tactic.Ring
import Mathlib.Tactic.Linarith
import Mathlib.Tactic.FieldSimp
import Mathlib.Tactic.IntervalCases
import Mathlib.Tactic.NormNum
import Mathlib.Tactic.LinearCombination

/-! # Lemmas for C79: numbers, control points and coinciding sides of the patches -/
namespace IFEM.PatchGen
open IFEM.PatchGen.Spec

/-- Every number in the range is that of exactly one place. -/
theorem ijk_surj {nx ny nz p : Nat} (h1 : 1 ≤ p) (h2 : p ≤ nx*ny*nz) : ∃ i j k, i < nx ∧ j < ny ∧ k < nz ∧ p = ijk nx ny i j k := by
  have hx : 0 < nx := by rcases Nat.eq_zero_or_pos nx with h | h; subst h; simp at h2; omega; exact h
  have hy : 0 < ny := by rcases Nat.eq_zero_or_pos ny with h | h; subst h; simp at h2; omega; exact h
  refine ⟨(p-1) % nx, (p-1)/nx % ny, (p-1)/nx/ny, Nat.mod_lt _ hx, Nat.mod_lt _ hy, ?_, ?_⟩
  · rw [Nat.div_div_eq_div_mul, Nat.div_lt_iff_lt_mul (Nat.mul_pos hx hy), Nat.mul_comm nz]; omega
  · unfold ijk
    have e1 := Nat.div_add_mod ((p-1)/nx) ny
    have e2 := Nat.div_add_mod (p-1) nx
    rw [Nat.mul_comm] at e1
    rw [e1, Nat.mul_comm, Nat.add_assoc, e2]
    omega

theorem ijk_inj {nx ny i j k i' j' k' : Nat} (hi : i < nx) (hi' : i' < nx) (hj : j < ny) (hj' : j' < ny) (h : ijk nx ny i j k = ijk nx ny i' j' k') : i = i' ∧ j = j' ∧ k = k' := by
  unfold ijk at h
  have hx : 0 < nx := by omega
  have hy : 0 < ny := by omega
  have e : i + nx*(k*ny+j) = i' + nx*(k'*ny+j') := by rw [Nat.mul_comm nx, Nat.mul_comm nx]; omega
  have a := congrArg (· % nx) e
  have b := congrArg (· / nx) e
  simp only [Nat.add_mul_mod_self_left, Nat.mod_eq_of_lt hi, Nat.mod_eq_of_lt hi', Nat.add_mul_div_left _ _ hx, Nat.div_eq_of_lt hi, Nat.div_eq_of_lt hi', Nat.zero_add] at a b
  have e' : j + ny*k = j' + ny*k' := by rw [Nat.mul_comm ny, Nat.mul_comm ny]; omega
  have c := congrArg (· % ny) e'
  have d := congrArg (· / ny) e'
  simp only [Nat.add_mul_mod_self_left, Nat.mod_eq_of_lt hj, Nat.mod_eq_of_lt hj', Nat.add_mul_div_left _ _ hy, Nat.div_eq_of_lt hj, Nat.div_eq_of_lt hj', Nat.zero_add] at c d
  exact ⟨a, c, d⟩

theorem ijk_range {nx ny nz i j k : Nat} (hi : i < nx) (hj : j < ny) (hk : k < nz) : 1 ≤ ijk nx ny i j k ∧ ijk nx ny i j k ≤ nx*ny*nz := by
  unfold ijk
  refine ⟨by omega, ?_⟩
  have h1 : k*ny + j + 1 ≤ nz*ny := by
    calc k*ny + j + 1 ≤ k*ny + ny := by omega
      _ = (k+1)*ny := by ring
      _ ≤ nz*ny := Nat.mul_le_mul_right _ hk
  calc 1 + (k*ny+j)*nx + i ≤ (k*ny+j)*nx + nx := by omega
    _ = (k*ny+j+1)*nx := by ring
    _ ≤ nz*ny*nx := Nat.mul_le_mul_right _ h1
    _ = nx*ny*nz := by ring

theorem mul_one_both {a b : Nat} (h : a*b = 1) : a = 1 ∧ b = 1 :=
  ⟨Nat.dvd_one.1 ⟨b, h.symm⟩, Nat.dvd_one.1 ⟨a, by rw [Nat.mul_comm]; exact h.symm⟩⟩

section
variable {K : Type} [Field K]

theorem g2_3D_eq (prt : K → K) (g : Gen K) (hx : 1 ≤ g.nx) (hy : 1 ≤ g.ny) (hz : 1 ≤ g.nz) :
    g2_3D prt g = (List.range g.nz).flatMap fun z => (List.range g.ny).flatMap fun y => (List.range g.nx).map fun x =>
      patch3 prt g.X0 (g.Lx*g.scale/g.nx) (g.Ly*g.scale/g.ny) (g.Lz*g.scale/g.nz) x y z := by
  unfold g2_3D
  by_cases h : g.nx*g.ny*g.nz > 1
  · simp only [h, if_true]
  · have h1 : g.nx*g.ny*g.nz = 1 := by
      have := Nat.mul_pos (Nat.mul_pos hx hy) hz
      omega
    have h2 := mul_one_both h1
    have h3 := mul_one_both h2.1
    simp only [h, if_false, h2.2, h3.1, h3.2]
    simp

theorem g2_2D_eq (prt : K → K) (g : Gen K) (hx : 1 ≤ g.nx) (hy : 1 ≤ g.ny) :
    g2_2D prt g = (List.range g.ny).flatMap fun y => (List.range g.nx).map fun x =>
      patch2 prt g.X0 (g.Lx*g.scale/g.nx) (g.Ly*g.scale/g.ny) x y := by
  unfold g2_2D
  by_cases h : g.nx*g.ny > 1
  · simp only [h, if_true]
  · have h1 : g.nx*g.ny = 1 := by
      have := Nat.mul_pos hx hy
      omega
    have h3 := mul_one_both h1
    simp only [h, if_false, h3.1, h3.2]
    simp

theorem g2_1D_eq (prt : K → K) (g : Gen K) (hx : 1 ≤ g.nx) :
    g2_1D prt g = (List.range g.nx).map fun (x : Nat) => [(prt (g.X0.1 + x*(g.Lx*g.scale/g.nx)), 0, 0), (prt (g.X0.1 + (x+1)*(g.Lx*g.scale/g.nx)), 0, 0)] := by
  unfold g2_1D
  by_cases h : g.nx > 1
  · simp only [h, if_true]
  · have h1 : g.nx = 1 := by omega
    simp only [h1]
    simp

theorem len_3D (prt : K → K) (g : Gen K) (hx : 1 ≤ g.nx) (hy : 1 ≤ g.ny) (hz : 1 ≤ g.nz) : (g2_3D prt g).length = g.nx*g.ny*g.nz := by
  rw [g2_3D_eq prt g hx hy hz, IFEM.BCache.flatMap_len _ (g.ny*g.nx) (fun z => by rw [IFEM.BCache.flatMap_len _ g.nx (by simp)]; simp)]
  simp; ring

theorem len_2D (prt : K → K) (g : Gen K) (hx : 1 ≤ g.nx) (hy : 1 ≤ g.ny) : (g2_2D prt g).length = g.nx*g.ny := by
  rw [g2_2D_eq prt g hx hy, IFEM.BCache.flatMap_len _ g.nx (by simp)]
  simp; ring

theorem len_1D (prt : K → K) (g : Gen K) (hx : 1 ≤ g.nx) : (g2_1D prt g).length = g.nx := by
  rw [g2_1D_eq prt g hx]; simp

theorem get_3D (prt : K → K) (g : Gen K) {i j k : Nat} (hi : i < g.nx) (hj : j < g.ny) (hk : k < g.nz) :
    (g2_3D prt g)[ijk g.nx g.ny i j k - 1]? = some (patch3 prt g.X0 (g.Lx*g.scale/g.nx) (g.Ly*g.scale/g.ny) (g.Lz*g.scale/g.nz) i j k) := by
  rw [g2_3D_eq prt g (by omega) (by omega) (by omega)]
  have e : ijk g.nx g.ny i j k - 1 = k*(g.ny*g.nx) + (j*g.nx + i) := by
    unfold ijk; rw [Nat.add_assoc, Nat.add_sub_cancel_left]; ring
  have hb : j*g.nx + i < g.ny*g.nx := by
    calc j*g.nx + i < j*g.nx + g.nx := by omega
      _ = (j+1)*g.nx := by ring
      _ ≤ g.ny*g.nx := Nat.mul_le_mul_right _ hj
  rw [e, IFEM.BCache.flatMap_get _ (g.ny*g.nx) (fun z => by rw [IFEM.BCache.flatMap_len _ g.nx (by simp)]; simp) _ k _ k (by simp [hk]) hb,
    IFEM.BCache.flatMap_get _ g.nx (by simp) _ j i j (by simp [hj]) hi]
  simp [hi]

theorem get_2D (prt : K → K) (g : Gen K) {i j : Nat} (hi : i < g.nx) (hj : j < g.ny) :
    (g2_2D prt g)[ijk g.nx g.ny i j 0 - 1]? = some (patch2 prt g.X0 (g.Lx*g.scale/g.nx) (g.Ly*g.scale/g.ny) i j) := by
  rw [g2_2D_eq prt g (by omega) (by omega)]
  have e : ijk g.nx g.ny i j 0 - 1 = j*g.nx + i := by
    unfold ijk; rw [Nat.add_assoc, Nat.add_sub_cancel_left]; ring
  rw [e, IFEM.BCache.flatMap_get _ g.nx (by simp) _ j i j (by simp [hj]) hi]
  simp [hi]

theorem get_1D (prt : K → K) (g : Gen K) {i : Nat} (hi : i < g.nx) :
    (g2_1D prt g)[i + 1 - 1]? = some [(prt (g.X0.1 + i*(g.Lx*g.scale/g.nx)), 0, 0), (prt (g.X0.1 + (i+1)*(g.Lx*g.scale/g.nx)), 0, 0)] := by
  rw [g2_1D_eq prt g (by omega)]
  simp [hi]

/-- The point of a patch at given parameters, when the numbers are printed exactly. -/
theorem point_3D (X0 : Pt K) (a b c : K) (i j k : Nat) (q : Pt K) :
    onPatch (patch3 id X0 a b c i j k) q = (X0.1 + (i + q.1)*a, X0.2.1 + (j + q.2.1)*b, X0.2.2 + (k + q.2.2)*c) := by
  simp only [patch3, corners, List.map_cons, List.map_nil, onPatch, lin, add, smul, id]
  refine Prod.ext ?_ (Prod.ext ?_ ?_) <;> simp <;> ring

theorem point_2D (X0 : Pt K) (a b : K) (i j : Nat) (q : Pt K) :
    onPatch (patch2 id X0 a b i j) q = (X0.1 + (i + q.1)*a, X0.2.1 + (j + q.2.1)*b, 0) := by
  simp only [patch2, onPatch, lin, add, smul, id]
  refine Prod.ext ?_ (Prod.ext ?_ ?_) <;> simp <;> ring

theorem point_1D (x a : K) (i : Nat) (q : Pt K) :
    onPatch [(id (x + i*a), 0, 0), (id (x + (i+1)*a), 0, 0)] q = (x + (i + q.1)*a, 0, 0) := by
  simp only [onPatch, lin, add, smul, id]
  refine Prod.ext ?_ (Prod.ext ?_ ?_) <;> simp <;> ring

end

/-- `onSide` for natural numbers. -/
def natSide (s a b : Nat) : Nat × Nat × Nat :=
  match s with
  | 1 => (0, a, b)
  | 2 => (1, a, b)
  | 3 => (a, 0, b)
  | 4 => (a, 1, b)
  | 5 => (a, b, 0)
  | _ => (a, b, 1)

section
variable {K : Type} [Field K] [LinearOrder K] [IsStrictOrderedRing K]

omit [LinearOrder K] [IsStrictOrderedRing K] in
theorem onSide_nat (s a b : Nat) : (onSide s (a : K) (b : K)) = (((natSide s a b).1 : K), ((natSide s a b).2.1 : K), ((natSide s a b).2.2 : K)) := by
  unfold onSide natSide
  split <;> simp

theorem scaled_eq {x h : K} (hh : h ≠ 0) {i u i' u' : Nat} (e : x + ((i : K) + u)*h = x + ((i' : K) + u')*h) : i + u = i' + u' := by
  have := mul_right_cancel₀ hh (add_left_cancel e)
  exact_mod_cast this

set_option maxHeartbeats 2000000 in
/-- Where two sides of a 3D model coincide. -/
theorem co_3D {X0 : Pt K} {a b c : K} (ha : a ≠ 0) (hb : b ≠ 0) (hc : c ≠ 0) {i j k i' j' k' s t : Nat} (hs : 1 ≤ s ∧ s ≤ 6) (ht : 1 ≤ t ∧ t ≤ 6)
    (h : ∀ u v : K, onPatch (patch3 id X0 a b c i j k) (onSide s u v) = onPatch (patch3 id X0 a b c i' j' k') (onSide t u v)) :
    (s = t ∧ i = i' ∧ j = j' ∧ k = k') ∨
    (s = 2 ∧ t = 1 ∧ i' = i+1 ∧ j' = j ∧ k' = k) ∨ (s = 1 ∧ t = 2 ∧ i = i'+1 ∧ j' = j ∧ k' = k) ∨
    (s = 4 ∧ t = 3 ∧ i' = i ∧ j' = j+1 ∧ k' = k) ∨ (s = 3 ∧ t = 4 ∧ i' = i ∧ j = j'+1 ∧ k' = k) ∨
    (s = 6 ∧ t = 5 ∧ i' = i ∧ j' = j ∧ k' = k+1) ∨ (s = 5 ∧ t = 6 ∧ i' = i ∧ j' = j ∧ k = k'+1) := by
  have hn : ∀ u v : Nat, i + (natSide s u v).1 = i' + (natSide t u v).1 ∧ j + (natSide s u v).2.1 = j' + (natSide t u v).2.1 ∧
      k + (natSide s u v).2.2 = k' + (natSide t u v).2.2 := by
    intro u v
    have e := h u v
    rw [onSide_nat, onSide_nat, point_3D, point_3D] at e
    simp only [Prod.mk.injEq] at e
    exact ⟨scaled_eq ha e.1, scaled_eq hb e.2.1, scaled_eq hc e.2.2⟩
  have h00 := hn 0 0
  have h10 := hn 1 0
  have h01 := hn 0 1
  clear hn h
  obtain ⟨hs1, hs2⟩ := hs
  obtain ⟨ht1, ht2⟩ := ht
  interval_cases s <;> interval_cases t <;> simp only [natSide] at h00 h10 h01 <;> omega

/-- Where two sides of a 2D model coincide. -/
theorem co_2D {X0 : Pt K} {a b : K} (ha : a ≠ 0) (hb : b ≠ 0) {i j i' j' s t : Nat} (hs : 1 ≤ s ∧ s ≤ 4) (ht : 1 ≤ t ∧ t ≤ 4)
    (h : ∀ u v : K, onPatch (patch2 id X0 a b i j) (onSide s u v) = onPatch (patch2 id X0 a b i' j') (onSide t u v)) :
    (s = t ∧ i = i' ∧ j = j') ∨
    (s = 2 ∧ t = 1 ∧ i' = i+1 ∧ j' = j) ∨ (s = 1 ∧ t = 2 ∧ i = i'+1 ∧ j' = j) ∨
    (s = 4 ∧ t = 3 ∧ i' = i ∧ j' = j+1) ∨ (s = 3 ∧ t = 4 ∧ i' = i ∧ j = j'+1) := by
  have hn : ∀ u v : Nat, i + (natSide s u v).1 = i' + (natSide t u v).1 ∧ j + (natSide s u v).2.1 = j' + (natSide t u v).2.1 := by
    intro u v
    have e := h u v
    rw [onSide_nat, onSide_nat, point_2D, point_2D] at e
    simp only [Prod.mk.injEq] at e
    exact ⟨scaled_eq ha e.1, scaled_eq hb e.2.1⟩
  have h00 := hn 0 0
  have h10 := hn 1 0
  clear hn h
  obtain ⟨hs1, hs2⟩ := hs
  obtain ⟨ht1, ht2⟩ := ht
  interval_cases s <;> interval_cases t <;> simp only [natSide] at h00 h10 <;> omega

/-- Where two ends of a 1D model coincide. -/
theorem co_1D {x a : K} (ha : a ≠ 0) {i i' s t : Nat} (hs : 1 ≤ s ∧ s ≤ 2) (ht : 1 ≤ t ∧ t ≤ 2)
    (h : ∀ u v : K, onPatch [(id (x + i*a), 0, 0), (id (x + (i+1)*a), 0, 0)] (onSide s u v) = onPatch [(id (x + i'*a), 0, 0), (id (x + (i'+1)*a), 0, 0)] (onSide t u v)) :
    (s = t ∧ i = i') ∨ (s = 2 ∧ t = 1 ∧ i' = i+1) ∨ (s = 1 ∧ t = 2 ∧ i = i'+1) := by
  have h00 : i + (natSide s 0 0).1 = i' + (natSide t 0 0).1 := by
    have e := h (0 : Nat) (0 : Nat)
    rw [onSide_nat, onSide_nat, point_1D, point_1D] at e
    simp only [Prod.mk.injEq] at e
    exact scaled_eq ha e.1
  clear h
  obtain ⟨hs1, hs2⟩ := hs
  obtain ⟨ht1, ht2⟩ := ht
  interval_cases s <;> interval_cases t <;> simp only [natSide] at h00 <;> omega

end

/-! ## The run -/

/-- The connection of a call. -/
def joinOf : Act → Option Iface
  | .join _ c => some c
  | .close _ _ => none

/-- The closing of a call. -/
def closeOf : Act → Option (Nat × Nat)
  | .join _ _ => none
  | .close p d => some (p, d)

/-- A call that can be made on this process. -/
def Fine (par : Nat) (s : Sim) : Act → Prop
  | .join chk c => c.master ≠ c.slave ∧ 1 ≤ c.master ∧ c.master ≤ s.nGl ∧ 1 ≤ c.slave ∧ c.slave ≤ s.nGl ∧ c.orient = 0 ∧ c.dim + 1 = par ∧
      (localIndex s c.master > 0 → localIndex s c.slave > 0 → s.joins c chk = true)
  | .close p _ => localIndex s p > 0

/-- Both patches are on this process. -/
def here (s : Sim) (c : Iface) : Bool := decide (localIndex s c.master > 0 ∧ localIndex s c.slave > 0)

theorem fold_acts (par : Nat) (s : Sim) : ∀ (l : List Act) (st : St), (∀ a ∈ l, Fine par s a) →
    l.foldlM (act par s) st = .ok ⟨st.interfaces ++ (l.filterMap joinOf).filter (here s), st.ghosts ++ (l.filterMap joinOf).filter (fun c => !here s c), st.closed ++ l.filterMap closeOf⟩
  | [], st, _ => by simp; rfl
  | .join chk c :: l, st, h => by
    have hc := h _ (List.mem_cons_self ..)
    obtain ⟨h1, h2, h3, h4, h5, h6, h7, h8⟩ := hc
    have j1 : (Act.join chk c :: l).filterMap joinOf = c :: l.filterMap joinOf := rfl
    have j2 : (Act.join chk c :: l).filterMap closeOf = l.filterMap closeOf := rfl
    have hl := fun a ha => h a (List.mem_cons_of_mem _ ha)
    rw [List.foldlM_cons]
    simp only [act, connectPatches]
    rw [if_neg (by omega), if_neg (by omega)]
    by_cases hh : localIndex s c.master > 0 ∧ localIndex s c.slave > 0
    · rw [if_pos hh, if_neg (by omega), if_pos (h8 hh.1 hh.2)]
      show l.foldlM (act par s) _ = _
      have hb : here s c = true := decide_eq_true hh
      rw [fold_acts par s l _ hl, j1, j2]
      simp [hb]
    · rw [if_neg hh]
      show l.foldlM (act par s) _ = _
      have hb : here s c = false := decide_eq_false hh
      rw [fold_acts par s l _ hl, j1, j2]
      simp [hb]
  | .close p d :: l, st, h => by
    have hc : localIndex s p > 0 := h _ (List.mem_cons_self ..)
    have hl := fun a ha => h a (List.mem_cons_of_mem _ ha)
    rw [List.foldlM_cons]
    simp only [act, closePatch]
    rw [if_pos hc]
    show l.foldlM (act par s) _ = _
    have j1 : (Act.close p d :: l).filterMap joinOf = l.filterMap joinOf := rfl
    have j2 : (Act.close p d :: l).filterMap closeOf = (p, d) :: l.filterMap closeOf := rfl
    rw [fold_acts par s l _ hl, j1, j2]
    simp

theorem run_acts {par : Nat} {s : Sim} {l : List Act} (hf : s.fem = true) (h : ∀ a ∈ l, Fine par s a) :
    runActs par s l = .ok ⟨(l.filterMap joinOf).filter (here s), (l.filterMap joinOf).filter (fun c => !here s c), l.filterMap closeOf⟩ := by
  unfold runActs
  rw [if_pos hf, fold_acts par s l _ h]
  simp

end IFEM.PatchGen
