import Verif.Props.ProjectionOne
import Mathlib.Tactic.LinearCombination
import Mathlib.Tactic.NormNum
/-!
# C74: exactness, several functions, the order of the points
-/
namespace IFEM.Props
open IFEM IFEM.L2 IFEM.Spec IFEM.Spec.L2 IFEM.Weak IFEM.Lem

section
variable {R : Type} [Field R] [LinearOrder R] [IsStrictOrderedRing R]

/-- **C74** A function that is a field at all integration points is its own projection: the projection has the same value at
every point with positive weight, and if the fields are determined by those values, the same nodal values. -/
theorem C74_reproduction (es : List (El R)) (n j : Nat) (hw : ∀ e ∈ es, ∀ p ∈ e.pts, 0 ≤ p.w) (x c : Nat → R)
    (hx : ∀ v, inner es v x = load es j v) (hf : ∀ e ∈ es, ∀ p ∈ e.pts, comp p j = val e.mnpc p c) :
    (∀ e ∈ es, ∀ p ∈ e.pts, 0 < p.w → val e.mnpc p x = comp p j) ∧
    ((∀ v, inner es v v = 0 → ∀ i < n, v i = 0) → ∀ i < n, x i = c i) := by
  have h0 : dist2 es j c = 0 := total_eq_zero es _ fun e he p hp => by rw [hf e he p hp, sub_self]; ring
  have h1 := nearest es hw j x hx c
  have h2 : 0 ≤ dist2 es j x := total_nonneg es _ fun e he p hp => mul_nonneg (hw e he p hp) (sq_nonneg _)
  have h3 : 0 ≤ total es (fun m p => p.w * (val m p c - val m p x) ^ 2) := total_nonneg es _ fun e he p hp => mul_nonneg (hw e he p hp) (sq_nonneg _)
  have h4 : total es (fun m p => p.w * (val m p c - val m p x) ^ 2) = 0 := by linarith
  refine ⟨fun e he p hp hpos => ?_, fun hdef i hi => ?_⟩
  · have := total_zero es _ (fun e he p hp => mul_nonneg (hw e he p hp) (sq_nonneg _)) h4 e he p hp
    rcases mul_eq_zero.1 this with h | h
    · exact absurd h (ne_of_gt hpos)
    · rw [hf e he p hp]
      exact (sub_eq_zero.1 (pow_eq_zero_iff (two_ne_zero) |>.1 h)).symm
  · have := hdef (fun i => c i - x i) (by
      refine Eq.trans ?_ h4
      refine total_congr es _ _ fun e _ p _ => ?_
      rw [val_sub]; ring) i hi
    exact (sub_eq_zero.1 this).symm

end

section
variable {R : Type} [Field R]

theorem copyRows_spec {r n : Nat} (X : Mat R) (A : Matrix (Fin r) (Fin n) R) (hX : Rep X A) (ofs d : Nat) (h : ofs + d ≤ r) :
    ∃ Y, copyRows X n (ofs + 1) d = some Y ∧ Rep Y (Matrix.of fun (a : Fin d) (i : Fin n) => A ⟨ofs + a, by omega⟩ i) := by
  obtain ⟨Y, a1, a2⟩ := fill_pairs d n (fun q => X.get? ((ofs + 1 + q.1 : Nat) : Int) ((q.2 : Int) + 1)) (fun a i => if h : ofs + a < r ∧ i < n then A ⟨ofs + a, h.1⟩ ⟨i, h.2⟩ else 0) (fun a i ha hi => by
    rw [dif_pos ⟨by omega, hi⟩]
    have := rep_get1 hX ⟨ofs + a, by omega⟩ ⟨i, hi⟩
    rw [← this]
    dsimp only
    congr 1
    push_cast; ring)
  refine ⟨Y, a1, Eq.mp (congrArg (Rep Y) ?_) a2⟩
  funext a i
  show (if h : _ then _ else _) = A _ _
  rw [dif_pos ⟨by have := a.2; omega, i.2⟩]

theorem split_loop {r n : Nat} (X : Mat R) (A : Matrix (Fin r) (Fin n) R) (hX : Rep X A) (ds : List Nat) : ∀ (ofs : Nat) (Ys : List (Mat R)), ofs + ds.sum ≤ r →
    ∃ Zs : List (Mat R), ds.foldlM (fun (st : List (Mat R) × Nat) (ncomp : Nat) => do
      let Y ← copyRows X n st.2 ncomp
      some (st.1 ++ [Y], st.2 + ncomp)) (Ys, ofs + 1) = some (Ys ++ Zs, ofs + ds.sum + 1) ∧ Zs.length = ds.length ∧
      ∀ t d Z, ds[t]? = some d → Zs[t]? = some Z → Z.nrow = d ∧ Z.ncol = n ∧ ∀ a < d, ∀ i < n, nodal Z a i = nodal X (ofs + (ds.take t).sum + a) i := by
  induction ds with
  | nil => intro ofs Ys _; exact ⟨[], by simp, rfl, fun t d Z h => by simp at h⟩
  | cons d ds ih =>
    intro ofs Ys h
    rw [List.sum_cons] at h
    obtain ⟨Y, a1, a2⟩ := copyRows_spec X A hX ofs d (by omega)
    obtain ⟨Zs, b1, b2, b3⟩ := ih (ofs + d) (Ys ++ [Y]) (by omega)
    refine ⟨Y :: Zs, ?_, by simp [b2], fun t d' Z h1 h2 => ?_⟩
    · rw [List.foldlM_cons]
      simp only [Option.bind_eq_bind]
      rw [a1]
      simp only [Option.bind_some, Option.bind_eq_bind] at b1 ⊢
      rw [show ofs + 1 + d = ofs + d + 1 by omega]
      rw [b1, List.sum_cons]; simp [Nat.add_assoc]
    · cases t with
      | zero =>
        simp only [List.getElem?_cons_zero, Option.some.injEq] at h1 h2
        subst h1 h2
        refine ⟨a2.rows, a2.cols, fun a ha i hi => ?_⟩
        unfold nodal
        rw [rep_get1 a2 ⟨a, ha⟩ ⟨i, hi⟩, List.take_zero, List.sum_nil, Nat.add_zero, rep_get1 hX ⟨ofs + a, by omega⟩ ⟨i, hi⟩]; rfl
      | succ t =>
        simp only [List.getElem?_cons_succ] at h1 h2
        obtain ⟨c1, c2, c3⟩ := b3 t d' Z h1 h2
        refine ⟨c1, c2, fun a ha i hi => ?_⟩
        rw [c3 a ha i hi, List.take_succ_cons, List.sum_cons, Nat.add_assoc ofs]

/-- **C74** Several functions: the results of the function `t` are the rows belonging to it. -/
theorem C74_split {n : Nat} (X : Mat R) (dims : List Nat) (hX : X.nrow = dims.sum ∧ X.ncol = n ∧ X.elem.length = dims.sum * n) (hn : 0 < n) (hd : ∀ d ∈ dims.head?, 0 < d) (h0 : dims ≠ []) :
    ∃ Ys, split X n dims = some Ys ∧ Ys.length = dims.length ∧
      ∀ t d Y, dims[t]? = some d → Ys[t]? = some Y → Y.nrow = d ∧ Y.ncol = n ∧ ∀ a < d, ∀ i < n, nodal Y a i = nodal X ((dims.take t).sum + a) i := by
  obtain ⟨hX1, hX2, hX3⟩ := hX
  have hR : Rep X (Matrix.of fun (j : Fin dims.sum) (a : Fin n) => nodal X j a) := ⟨hX1, hX2, hX3, fun j a => by
    have hlt : j.1 + dims.sum * a.1 < X.elem.length := by rw [hX3]; exact rep_idx j.2 a.2
    have : X.get? ((j : Int) + 1) ((a : Int) + 1) = X.elem[j.1 + dims.sum * a.1]? := by
      unfold Mat.get?
      have h1 := j.2
      have h2 := a.2
      rw [if_pos (by omega), show ((j.1 : Int) + 1 - 1).toNat = j.1 by omega, show ((a.1 : Int) + 1 - 1).toNat = a.1 by omega, hX1]
    show _ = some (nodal X j a)
    unfold nodal
    rw [this, List.getElem?_eq_getElem hlt]; rfl⟩
  match dims, h0 with
  | [d], _ =>
    refine ⟨[X], rfl, rfl, fun t d' Y h1 h2 => ?_⟩
    cases t with
    | succ t => simp at h1
    | zero =>
      simp only [List.getElem?_cons_zero, Option.some.injEq] at h1 h2
      subst h1 h2
      refine ⟨by simpa using hX1, hX2, fun a _ i _ => by simp⟩
  | d :: d2 :: ds, _ =>
    have hd0 : 0 < d := hd d (by simp)
    obtain ⟨Zs, b1, b2, b3⟩ := split_loop X _ hR (d2 :: ds) d [] (by simp)
    obtain ⟨X', -, c1, c2⟩ := C60_expandRows_shrink hR d hd0 (by simp) hn
    refine ⟨X' :: Zs, ?_, by simp [b2], fun t d' Y h1 h2 => ?_⟩
    · unfold split
      simp only [Option.bind_eq_bind] at b1 ⊢
      rw [b1, Option.bind_some, c1]; rfl
    · cases t with
      | zero =>
        simp only [List.getElem?_cons_zero, Option.some.injEq] at h1 h2
        subst h1 h2
        refine ⟨c2.rows, c2.cols, fun a ha i hi => ?_⟩
        rw [List.take_zero, List.sum_nil, Nat.zero_add]
        show (X'.get? _ _).getD 0 = _
        rw [rep_get1 c2 ⟨a, ha⟩ ⟨i, hi⟩]; rfl
      | succ t =>
        simp only [List.getElem?_cons_succ] at h1 h2
        obtain ⟨c1, c2, c3⟩ := b3 t d' Y h1 h2
        exact ⟨c1, c2, fun a ha i hi => by rw [c3 a ha i hi, List.take_succ_cons, List.sum_cons]⟩

end

/-! ## The order of the integration points -/

theorem count_up (m : Nat) (L : List Nat) (k : Nat) : (List.range m).foldl (fun (st : List Nat × Nat) (_ : Nat) => (st.1 ++ [st.2], st.2 + 1)) (L, k) = (L ++ (List.range m).map (k + ·), k + m) := by
  induction m with
  | zero => simp
  | succ m ih => rw [List.range_succ, List.foldl_append, ih]; simp [Nat.add_assoc]

theorem points2_eq (ng1 ng2 nel1 iel : Nat) (h1 : 0 < nel1) :
    points2 ng1 ng2 nel1 iel = (List.range ng2).flatMap fun b => (List.range ng1).map fun a => (iel/nel1 * ng2 + b) * (ng1 * nel1) + iel%nel1 * ng2 + a := by
  unfold points2
  have key : ∀ m s, (List.range m).foldl (fun (st : List Nat × Nat) (_ : Nat) =>
      let r := (List.range ng1).foldl (fun (st : List Nat × Nat) (_ : Nat) => (st.1 ++ [st.2], st.2 + 1)) st
      (r.1, r.2 + ng1*(nel1-1))) ([], s) = ((List.range m).flatMap fun b => (List.range ng1).map fun a => s + b * (ng1 * nel1) + a, s + m * (ng1 * nel1)) := by
    intro m s
    induction m with
    | zero => simp
    | succ m ih =>
      rw [List.range_succ, List.foldl_append, ih, List.foldl_cons, List.foldl_nil, count_up, List.flatMap_append, List.flatMap_singleton]
      refine Prod.ext rfl ?_
      show s + m * (ng1 * nel1) + ng1 + ng1 * (nel1 - 1) = _
      obtain ⟨k, rfl⟩ : ∃ k, nel1 = k + 1 := ⟨nel1 - 1, by omega⟩
      rw [Nat.add_sub_cancel]; ring
  rw [key]
  refine congrArg (fun f => (List.range ng2).flatMap f) (funext fun b => List.map_congr_left fun a _ => ?_)
  ring

theorem points3_eq (ng1 ng2 ng3 nel1 nel2 iel : Nat) (h1 : 0 < nel1) (h2 : 0 < nel2) :
    points3 ng1 ng2 ng3 nel1 nel2 iel = (List.range ng3).flatMap fun c => (List.range ng2).flatMap fun b => (List.range ng1).map fun a =>
      ((iel/(nel1*nel2) * ng3 + c) * (ng2 * nel2) + iel/nel1%nel2 * ng3 + b) * (ng1 * nel1) + iel%nel1 * ng3 + a := by
  unfold points3
  have row : ∀ m L s, (List.range m).foldl (fun (st : List Nat × Nat) (_ : Nat) =>
      let r := (List.range ng1).foldl (fun (st : List Nat × Nat) (_ : Nat) => (st.1 ++ [st.2], st.2 + 1)) st
      (r.1, r.2 + ng1*(nel1-1))) (L, s) = (L ++ (List.range m).flatMap fun b => (List.range ng1).map fun a => s + b * (ng1 * nel1) + a, s + m * (ng1 * nel1)) := by
    intro m L s
    induction m with
    | zero => simp
    | succ m ih =>
      rw [List.range_succ, List.foldl_append, ih, List.foldl_cons, List.foldl_nil, count_up, List.flatMap_append, List.flatMap_singleton]
      refine Prod.ext (by simp) ?_
      show s + m * (ng1 * nel1) + ng1 + ng1 * (nel1 - 1) = _
      obtain ⟨k, rfl⟩ : ∃ k, nel1 = k + 1 := ⟨nel1 - 1, by omega⟩
      rw [Nat.add_sub_cancel]; ring
  have key : ∀ m s, (List.range m).foldl (fun (st : List Nat × Nat) (_ : Nat) =>
      let r := (List.range ng2).foldl (fun (st : List Nat × Nat) (_ : Nat) =>
        let r := (List.range ng1).foldl (fun (st : List Nat × Nat) (_ : Nat) => (st.1 ++ [st.2], st.2 + 1)) st
        (r.1, r.2 + ng1*(nel1-1))) st
      (r.1, r.2 + ng2*(nel2-1)*ng1*nel1)) ([], s) = ((List.range m).flatMap fun c => (List.range ng2).flatMap fun b => (List.range ng1).map fun a =>
        s + c * (ng2 * nel2 * (ng1 * nel1)) + b * (ng1 * nel1) + a, s + m * (ng2 * nel2 * (ng1 * nel1))) := by
    intro m s
    induction m with
    | zero => simp
    | succ m ih =>
      rw [List.range_succ, List.foldl_append, ih, List.foldl_cons, List.foldl_nil, row, List.flatMap_append, List.flatMap_singleton]
      refine Prod.ext rfl ?_
      show s + m * (ng2 * nel2 * (ng1 * nel1)) + ng2 * (ng1 * nel1) + ng2 * (nel2 - 1) * ng1 * nel1 = _
      obtain ⟨k, rfl⟩ : ∃ k, nel2 = k + 1 := ⟨nel2 - 1, by omega⟩
      rw [Nat.add_sub_cancel]; ring
  rw [key]
  refine congrArg (fun f => (List.range ng3).flatMap f) (funext fun c => congrArg (fun f => (List.range ng2).flatMap f) (funext fun b => List.map_congr_left fun a _ => ?_))
  ring

/-- **C74** With the same number of points in all directions, the values of an element are taken at its own points of the grid of all points:
in two dimensions `a` counts the columns and `b` the rows of the grid, in three `c` counts the layers. -/
theorem C74_points (ng nel1 nel2 : Nat) (h1 : 0 < nel1) (h2 : 0 < nel2) :
    (∀ i1 < nel1, ∀ i2, points2 ng ng nel1 (i2 * nel1 + i1) =
      (List.range ng).flatMap fun b => (List.range ng).map fun a => (i2 * ng + b) * (ng * nel1) + (i1 * ng + a)) ∧
    ∀ i1 < nel1, ∀ i2 < nel2, ∀ i3, points3 ng ng ng nel1 nel2 ((i3 * nel2 + i2) * nel1 + i1) =
      (List.range ng).flatMap fun c => (List.range ng).flatMap fun b => (List.range ng).map fun a =>
        ((i3 * ng + c) * (ng * nel2) + (i2 * ng + b)) * (ng * nel1) + (i1 * ng + a) := by
  refine ⟨fun i1 hi1 i2 => ?_, fun i1 hi1 i2 hi2 i3 => ?_⟩
  · rw [points2_eq _ _ _ _ h1]
    have e1 : (i2 * nel1 + i1) / nel1 = i2 := by rw [Nat.mul_comm, Nat.mul_add_div h1, Nat.div_eq_of_lt hi1]; omega
    have e2 : (i2 * nel1 + i1) % nel1 = i1 := by rw [Nat.mul_comm, Nat.mul_add_mod, Nat.mod_eq_of_lt hi1]
    rw [e1, e2]
    simp only [Nat.add_assoc]
  · rw [points3_eq _ _ _ _ _ _ h1 h2]
    have e1 : ((i3 * nel2 + i2) * nel1 + i1) / nel1 = i3 * nel2 + i2 := by rw [Nat.mul_comm, Nat.mul_add_div h1, Nat.div_eq_of_lt hi1]; omega
    have e2 : ((i3 * nel2 + i2) * nel1 + i1) % nel1 = i1 := by rw [Nat.mul_comm, Nat.mul_add_mod, Nat.mod_eq_of_lt hi1]
    have e3 : (i3 * nel2 + i2) % nel2 = i2 := by rw [Nat.mul_comm, Nat.mul_add_mod, Nat.mod_eq_of_lt hi2]
    have e4 : (i3 * nel2 + i2) / nel2 = i3 := by rw [Nat.mul_comm, Nat.mul_add_div h2, Nat.div_eq_of_lt hi2]; omega
    rw [← Nat.div_div_eq_div_mul, e1, e2, e3, e4]
    simp only [Nat.add_assoc]

/-- With different numbers of points in the two directions, the second element takes its values at points of the first one. -/
theorem C74_points_counterexample : points2 3 2 2 1 = [2, 3, 4, 8, 9, 10] ∧
    ((List.range 2).flatMap fun b => (List.range 3).map fun a => (0 * 2 + b) * (3 * 2) + (1 * 3 + a)) = [3, 4, 5, 9, 10, 11] := by decide

/-- **C74** The grid of the points: the first direction runs fastest. -/
theorem C74_grid {α : Type} (u v w : List α) :
    (∀ a b, a < u.length → b < v.length → (expandGrid2 u v).1[b * u.length + a]? = u[a]? ∧ (expandGrid2 u v).2[b * u.length + a]? = v[b]?) ∧
    (∀ a b c, a < u.length → b < v.length → c < w.length →
      (expandGrid3 u v w).1[(c * v.length + b) * u.length + a]? = u[a]? ∧ (expandGrid3 u v w).2.1[(c * v.length + b) * u.length + a]? = v[b]? ∧
      (expandGrid3 u v w).2.2[(c * v.length + b) * u.length + a]? = w[c]?) := by
  have fm : ∀ {β γ : Type} (L : List β) (m : Nat) (f : β → List γ) (hf : ∀ x ∈ L, (f x).length = m) (b a : Nat) (ha : a < m), (L.flatMap f)[b * m + a]? = L[b]?.bind fun x => (f x)[a]? := by
    intro β γ L m f
    induction L with
    | nil => intro _ b a _; simp
    | cons x L ih =>
      intro hf b a ha
      have hx := hf x List.mem_cons_self
      rw [List.flatMap_cons]
      cases b with
      | zero => rw [Nat.zero_mul, Nat.zero_add, List.getElem?_append_left (by omega)]; rfl
      | succ b =>
        rw [List.getElem?_append_right (by rw [hx, Nat.succ_mul]; omega), hx, show (b + 1) * m + a - m = b * m + a by rw [Nat.succ_mul]; omega,
          ih (fun x h => hf x (List.mem_cons_of_mem _ h)) b a ha]; rfl
  have len : ∀ {β γ : Type} (L : List β) (m : Nat) (f : β → List γ) (hf : ∀ x ∈ L, (f x).length = m), (L.flatMap f).length = L.length * m := by
    intro β γ L m f
    induction L with
    | nil => intro _; simp
    | cons x L ih =>
      intro hf
      rw [List.flatMap_cons, List.length_append, ih (fun x h => hf x (List.mem_cons_of_mem _ h)), hf x List.mem_cons_self, List.length_cons, Nat.succ_mul]; omega
  have rowIdx : ∀ {a b m : Nat} {k : Nat}, a < m → b < k → b * m + a < k * m := by
    intro a b m k ha hb
    have := Nat.mul_le_mul_right m (Nat.succ_le_of_lt hb)
    rw [Nat.succ_mul] at this
    omega
  refine ⟨fun a b ha hb => ⟨?_, ?_⟩, fun a b c ha hb hc => ⟨?_, ?_, ?_⟩⟩
  · show (v.flatMap fun _ => u)[_]? = _
    rw [fm v u.length _ (fun _ _ => rfl) b a ha, List.getElem?_eq_getElem hb]; rfl
  · show (v.flatMap fun y => u.map fun _ => y)[_]? = _
    rw [fm v u.length _ (fun _ _ => by simp) b a ha, List.getElem?_eq_getElem hb, Option.bind_some, List.getElem?_map, List.getElem?_eq_getElem ha]; rfl
  · show (w.flatMap fun _ => v.flatMap fun _ => u)[_]? = _
    rw [show (c * v.length + b) * u.length + a = c * (v.length * u.length) + (b * u.length + a) by ring,
      fm w (v.length * u.length) _ (fun _ _ => len v u.length _ fun _ _ => rfl) c _ (rowIdx ha hb), List.getElem?_eq_getElem hc, Option.bind_some,
      fm v u.length _ (fun _ _ => rfl) b a ha, List.getElem?_eq_getElem hb]; rfl
  · show (w.flatMap fun _ => v.flatMap fun y => u.map fun _ => y)[_]? = _
    rw [show (c * v.length + b) * u.length + a = c * (v.length * u.length) + (b * u.length + a) by ring,
      fm w (v.length * u.length) _ (fun _ _ => len v u.length _ fun _ _ => by simp) c _ (rowIdx ha hb), List.getElem?_eq_getElem hc, Option.bind_some,
      fm v u.length _ (fun _ _ => by simp) b a ha, List.getElem?_eq_getElem hb, Option.bind_some, List.getElem?_map, List.getElem?_eq_getElem ha]; rfl
  · show (w.flatMap fun z => v.flatMap fun _ => u.map fun _ => z)[_]? = _
    rw [show (c * v.length + b) * u.length + a = c * (v.length * u.length) + (b * u.length + a) by ring,
      fm w (v.length * u.length) _ (fun _ _ => len v u.length _ fun _ _ => by simp) c _ (rowIdx ha hb), List.getElem?_eq_getElem hc, Option.bind_some,
      fm v u.length _ (fun _ _ => by simp) b a ha, List.getElem?_eq_getElem hb, Option.bind_some, List.getElem?_map, List.getElem?_eq_getElem ha]; rfl

/-- **C74** A function is evaluated at the parameter of the point exactly if the parameter domain begins at zero; otherwise it is evaluated elsewhere. -/
theorem C74_parameter {R : Type} [Field R] [LinearOrder R] [IsStrictOrderedRing R] (u0 u1 g : R) (h : u0 < u1) :
    evalParam u0 u1 (funcParam u0 u1 g) = g ↔ u0 = 0 := by
  have h' : u1 - u0 ≠ 0 := ne_of_gt (sub_pos.2 h)
  unfold evalParam funcParam
  have e : (1 - (u0 + g / (u1 - u0))) * u0 + (u0 + g / (u1 - u0)) * u1 = u0 * (1 + (u1 - u0)) + g := by
    have : g / (u1 - u0) * (u1 - u0) = g := div_mul_cancel₀ g h'
    linear_combination this
  have hp : 1 + (u1 - u0) ≠ 0 := ne_of_gt (by linarith)
  rw [e, add_eq_right, mul_eq_zero]
  exact or_iff_left hp

/-! ## A concrete case -/

/-- Two linear elements with the trapezoidal rule; the node 3 belongs to none. -/
def exampleEls : List (El ℚ) :=
  [⟨[0, 1], [⟨[1, 0], 1/2, some [3, 1]⟩, ⟨[0, 1], 1/2, some [5, 1]⟩]⟩, ⟨[1, 2], [⟨[1, 0], 1/2, some [7, 1]⟩, ⟨[0, 1], 1/2, some [9, 1]⟩]⟩]

/-- A solver that tries one solution. -/
def tries (n : Nat) (x : List ℚ) (M : Sparse ℚ) (B : List ℚ) : Option (List ℚ) :=
  if x.length = B.length ∧ ∀ j < B.length + 1, ∀ i < n, j * n + i < B.length →
    ∑ k ∈ Finset.range n, (M.get? (i+1) (k+1)).getD 0 * x.getD (j * n + k) 0 = B.getD (j * n + i) 0 then some x else none

theorem tries_solver (n : Nat) (x : List ℚ) : Solver n (tries n x) := by
  intro M B y h
  unfold tries at h
  split at h
  · rename_i hc
    cases h
    refine ⟨hc.1, fun j i hlt hi => hc.2 j ?_ i hi hlt⟩
    have : j * 1 ≤ j * n := Nat.mul_le_mul_left _ (by omega)
    omega
  · cases h

/-- The projection of two functions on four nodes. -/
theorem C74_example : (project2 (tries 4 [3, 6, 9, 0, 1, 1, 1, 0]) false 4 2 [[0, 1], [1, 2]] 2 exampleEls).map (fun X => (X.nrow, X.ncol, X.elem)) = some (2, 4, [3, 1, 6, 1, 9, 1, 0, 0]) ∧
    (project1 (tries 4 [3, 6, 9, 0, 1, 1, 1, 0]) true false 4 2 [[0, 1], [1, 2]] exampleEls (some ([1, 3], ⟨2, 2, [10, 20, 30, 40]⟩))).map (fun X => (X.nrow, X.ncol, X.elem)) =
      some (2, 4, [10, 20, 6, 1, 30, 40, 0, 0]) := by decide +kernel

example : Fits 4 2 exampleEls ∧ Fits1 4 2 exampleEls ∧ (∀ e ∈ exampleEls, ∀ p ∈ e.pts, 0 ≤ p.w) ∧ Covered false 4 [[0, 1], [1, 2]] 2 exampleEls ∧
    Covered true 3 [[0, 1], [1, 2]] 2 exampleEls := by
  refine ⟨?_, ?_, ?_, fun h => (by cases h), fun _ => ⟨by decide, by decide, ?_⟩⟩
  all_goals intro e he; simp only [exampleEls, List.mem_cons, List.not_mem_nil, or_false] at he; rcases he with rfl | rfl
  all_goals simp
  all_goals norm_num

/-- With several threads, a node in no element makes the completion of the diagonal fail. -/
theorem C74_threads_counterexample : (system2 true 4 2 [[0, 1], [1, 2]] 2 exampleEls).isSome = false ∧ (system2 false 4 2 [[0, 1], [1, 2]] 2 exampleEls).isSome := by decide +kernel

end IFEM.Props
