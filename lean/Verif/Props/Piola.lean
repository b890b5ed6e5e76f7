import Verif.Props.MxElement
import Mathlib.Tactic.FieldSimp
import Mathlib.Algebra.BigOperators.Field
/-!
# C62: the Piola mapping
-/
namespace IFEM.Props
open IFEM IFEM.Spec IFEM.Lem IFEM.Mapping
open scoped Topology

variable {d s n : Nat}

/-- The number of functions in the bases before `b`. -/
def ofsOf (nf : Nat → Nat) (b : Nat) : Nat := ∑ c ∈ Finset.range b, nf c

theorem ofs_lt {nf : Nat → Nat} {b i dim : Nat} (hb : b < dim) (hi : i < nf b) : ofsOf nf b + i < ofsOf nf dim := by
  unfold ofsOf
  have h1 : ∑ c ∈ Finset.range (b + 1), nf c ≤ ∑ c ∈ Finset.range dim, nf c := Finset.sum_le_sum_of_subset (Finset.range_mono hb)
  rw [Finset.sum_range_succ] at h1
  omega

theorem slots_spec {V : List (List ℝ)} {nf : Nat → Nat} {dim : Nat} (h : ∀ b < dim, (V.getD b []).length = nf b) :
    (piolaSlots V dim).length = ofsOf nf dim ∧ (∀ b i, b < dim → i < nf b → (piolaSlots V dim)[ofsOf nf b + i]? = some (b, i)) ∧
      ∀ q ∈ piolaSlots V dim, q.1 < dim ∧ q.2 < nf q.1 := by
  induction dim with
  | zero => simp [piolaSlots, ofsOf]
  | succ m ih =>
    obtain ⟨h1, h2, h3⟩ := ih fun b hb => h b (by omega)
    have e : piolaSlots V (m + 1) = piolaSlots V m ++ (List.range (nf m)).map fun i => (m, i) := by
      unfold piolaSlots
      rw [List.range_succ, List.flatMap_append, List.flatMap_singleton, h m (by omega)]
    rw [e]
    refine ⟨?_, ?_, ?_⟩
    · rw [List.length_append, h1]; simp [ofsOf, Finset.sum_range_succ]
    · intro b i hb hi
      by_cases hbm : b = m
      · subst hbm
        rw [List.getElem?_append_right (by rw [h1]; omega), h1]
        simp [hi]
      · have := ofs_lt (nf := nf) (show b < m by omega) hi
        rw [List.getElem?_append_left (by rw [h1]; exact this)]
        exact h2 b i (by omega) hi
    · intro q hq
      rcases List.mem_append.mp hq with hq | hq
      · exact ⟨Nat.lt_succ_of_lt (h3 q hq).1, (h3 q hq).2⟩
      · obtain ⟨i, hi, rfl⟩ := List.mem_map.mp hq
        exact ⟨Nat.lt_succ_self _, List.mem_range.mp hi⟩

/-- A sequence of assignments `m(i+1,j+1) = v`. -/
theorem writes_spec {r c : Nat} (W : List (Nat × Nat × ℝ)) (hW : ∀ w ∈ W, w.1 < r ∧ w.2.1 < c) (m : Mat ℝ) (A : Matrix (Fin r) (Fin c) ℝ) (hA : Rep m A) :
    ∃ m' A', W.foldlM (fun (m : Mat ℝ) w => m.setAt? (w.1 + 1) (w.2.1 + 1) w.2.2) m = some m' ∧ Rep m' A' ∧
      (∀ i j v, (∃ w ∈ W, w.1 = i.1 ∧ w.2.1 = j.1) → (∀ w ∈ W, w.1 = i.1 → w.2.1 = j.1 → w.2.2 = v) → A' i j = v) ∧
      ∀ i j, (∀ w ∈ W, ¬ (w.1 = i.1 ∧ w.2.1 = j.1)) → A' i j = A i j := by
  induction W generalizing m A with
  | nil => exact ⟨m, A, rfl, hA, by simp, fun _ _ _ => rfl⟩
  | cons w W ih =>
    obtain ⟨w1, w2⟩ := hW w List.mem_cons_self
    obtain ⟨m1, s1, s2⟩ := C60_set hA ⟨w.1, w1⟩ ⟨w.2.1, w2⟩ w.2.2
    obtain ⟨m', A', i1, i2, i3, i4⟩ := ih (fun z hz => hW z (List.mem_cons_of_mem _ hz)) m1 _ s2
    refine ⟨m', A', ?_, i2, ?_, ?_⟩
    · simp only [List.foldlM_cons]
      simp only at s1
      rw [s1]; exact i1
    · intro i j v hex hall
      by_cases hin : ∃ z ∈ W, z.1 = i.1 ∧ z.2.1 = j.1
      · exact i3 i j v hin fun z hz => hall z (List.mem_cons_of_mem _ hz)
      · obtain ⟨z, hz, z1, z2⟩ := hex
        rcases List.mem_cons.mp hz with rfl | hz
        · rw [i4 i j fun y hy hc => hin ⟨y, hy, hc⟩]
          refine (if_pos ⟨Fin.ext z1.symm, Fin.ext z2.symm⟩).trans ?_
          exact hall z List.mem_cons_self z1 z2
        · exact absurd ⟨z, hz, z1, z2⟩ hin
    · intro i j hno
      rw [i4 i j fun z hz => hno z (List.mem_cons_of_mem _ hz)]
      exact if_neg fun hc => hno w List.mem_cons_self ⟨(congrArg Fin.val hc.1).symm, (congrArg Fin.val hc.2).symm⟩

theorem foldlM_flatMap_some {α β σ : Type} (L : List α) (f : α → List β) (g : σ → β → Option σ) (s : σ) :
    (L.flatMap f).foldlM g s = L.foldlM (fun s a => (f a).foldlM g s) s := by
  induction L generalizing s with
  | nil => rfl
  | cons a L ih =>
    rw [List.flatMap_cons, List.foldlM_append, List.foldlM_cons]
    exact congrArg _ (funext fun t => ih t)

theorem foldlM_congrS {α β : Type} (f g : α → β → Option α) (l : List β) (h : ∀ b ∈ l, ∀ a, f a b = g a b) (a : α) : l.foldlM f a = l.foldlM g a := by
  induction l generalizing a with
  | nil => rfl
  | cons b l ih =>
    rw [List.foldlM_cons, List.foldlM_cons, h b List.mem_cons_self]
    exact congrArg _ (funext fun t => ih (fun c hc => h c (List.mem_cons_of_mem _ hc)) t)

/-- The values of the bases of an element. -/
def ValuesAt (V : List (List ℝ)) (count : Nat) (nf : Nat → Nat) (N : Nat → Nat → Pt d → ℝ) (u : Pt d) : Prop :=
  count ≤ V.length ∧ ∀ b < count, V[b]? = some (List.ofFn fun i : Fin (nf b) => N b i u)

theorem values_getD {V : List (List ℝ)} {count : Nat} {nf : Nat → Nat} {N : Nat → Nat → Pt d → ℝ} {u : Pt d} (h : ValuesAt V count nf N u) {b : Nat} (hb : b < count) :
    V.getD b [] = List.ofFn fun i : Fin (nf b) => N b i u := by
  rw [List.getD_eq_getElem?_getD, h.2 b hb]; rfl

theorem values_at {V : List (List ℝ)} {count : Nat} {nf : Nat → Nat} {N : Nat → Nat → Pt d → ℝ} {u : Pt d} (h : ValuesAt V count nf N u) {b i : Nat} (hb : b < count) (hi : i < nf b) :
    (V.getD b []).getD i 0 = N b i u := by
  rw [values_getD h hb, List.getD_eq_getElem?_getD, List.getElem?_eq_getElem (by simpa using hi), List.getElem_ofFn]; rfl

/-- The zero matrix of `Matrix A(r,c)`. -/
theorem fresh_rep (r c : Nat) : ∃ A : Matrix (Fin r) (Fin c) ℝ, Rep ((⟨0, 0, []⟩ : Mat ℝ).resize r c false) A ∧ ∀ i j, A i j = 0 := by
  by_cases h0 : r * c = 0
  · obtain ⟨A, hA⟩ := resize_rep (⟨0, 0, []⟩ : Mat ℝ) rfl r c
    exact ⟨A, hA, fun i j => by
      rcases Nat.mul_eq_zero.mp h0 with h | h
      · exact absurd i.2 (by omega)
      · exact absurd j.2 (by omega)⟩
  · have e : ((⟨0, 0, []⟩ : Mat ℝ).resize r c false) = ⟨r, c, List.replicate (r * c) 0⟩ := by
      have hr : r ≠ 0 := fun e => h0 (by rw [e, Nat.zero_mul])
      unfold Mat.resize
      simp only [Bool.false_eq_true, if_false]
      rw [if_neg (by omega), if_neg (by omega)]
      simp
    rw [e]
    refine ⟨0, ⟨rfl, rfl, by simp, fun i k => ?_⟩, fun _ _ => rfl⟩
    have := rep_idx i.2 k.2
    simp [List.getElem?_replicate, this]

/-- The mapped basis functions: column `ofs + i` of `P` holds the components of `J e_b N_i/det J`. -/
theorem piolaBasis_spec {V : List (List ℝ)} {nf : Nat → Nat} {N : Nat → Nat → Pt d → ℝ} {u : Pt d} (hV : ValuesAt V d nf N u) {P J : Mat ℝ} (hP : P.WF) {J' : Matrix (Fin d) (Fin d) ℝ} (hJ : Rep J J') (D : ℝ) :
    ∃ R R', piolaBasis V P D J = some R ∧ Rep (r := d) (c := ofsOf nf d) R R' ∧
      ∀ (b : Fin d) (i : Nat) (hi : i < nf b), ∀ j, R' j ⟨ofsOf nf b + i, ofs_lt b.2 hi⟩ = J' j b * N b i u / D := by
  obtain ⟨s1, s2, s3⟩ := slots_spec (V := V) (nf := nf) (dim := d) fun b hb => by rw [values_getD hV hb]; simp
  obtain ⟨Z, z1, z2⟩ := fresh_rep d (ofsOf nf d)
  set W : List (Nat × Nat × ℝ) := (piolaSlots V d).zipIdx.map fun q => (q.1.1, q.2, (V.getD q.1.1 []).getD q.1.2 0) with hWd
  have hmem : ∀ w ∈ W, ∃ b i k, (piolaSlots V d)[k]? = some (b, i) ∧ w = (b, k, (V.getD b []).getD i 0) := by
    intro w hw
    obtain ⟨q, hq, rfl⟩ := List.mem_map.mp hw
    exact ⟨q.1.1, q.1.2, q.2, List.mem_zipIdx_iff_getElem?.mp hq, rfl⟩
  obtain ⟨T, T', t1, t2, t3, t4⟩ := writes_spec W (fun w hw => by
    obtain ⟨b, i, k, hk, rfl⟩ := hmem w hw
    exact ⟨(s3 _ (List.mem_of_getElem? hk)).1, by rw [← s1]; exact (List.getElem?_eq_some_iff.mp hk).1⟩) _ Z z1
  obtain ⟨R, r1, r2⟩ := C60_multiply (C := P) (A := J) (B := T) (tA := false) (tB := false) hJ t2 hP (1 / D)
  refine ⟨R, _, ?_, r2, ?_⟩
  · unfold piolaBasis
    simp only
    rw [hJ.rows, s1]
    rw [hWd, List.foldlM_map] at t1
    simp only at t1 ⊢
    rw [t1]
    exact r1
  · intro b i hi j
    have hcol : ∀ a : Fin d, T' a ⟨ofsOf nf b + i, ofs_lt b.2 hi⟩ = if a = b then N b i u else 0 := by
      intro a
      by_cases hab : a = b
      · subst hab
        rw [if_pos rfl]
        refine t3 _ _ _ ⟨(a.1, ofsOf nf a + i, (V.getD a.1 []).getD i 0), ?_, rfl, rfl⟩ ?_
        · exact List.mem_map.mpr ⟨((a.1, i), ofsOf nf a + i), List.mem_zipIdx_iff_getElem?.mpr (s2 a.1 i a.2 hi), rfl⟩
        · intro w hw w1 w2
          obtain ⟨b', i', k, hk, rfl⟩ := hmem w hw
          simp only at w1 w2 ⊢
          rw [w2, s2 a.1 i a.2 hi, Option.some_inj] at hk
          obtain ⟨rfl, rfl⟩ := Prod.mk.inj hk
          exact values_at hV a.2 hi
      · rw [if_neg hab, t4 _ _ fun w hw hc => ?_, z2]
        obtain ⟨b', i', k, hk, rfl⟩ := hmem w hw
        simp only at hc
        rw [hc.2, s2 b.1 i b.2 hi, Option.some_inj] at hk
        obtain ⟨rfl, rfl⟩ := Prod.mk.inj hk
        exact hab (Fin.ext hc.1.symm)
    rw [Matrix.smul_apply, Matrix.mul_apply]
    simp only [hcol, mul_ite, mul_zero, Finset.sum_ite_eq', Finset.mem_univ, if_true, smul_eq_mul]
    ring

theorem pd_div {f g : Pt d → ℝ} {u : Pt d} (hf : DifferentiableAt ℝ f u) (hg : DifferentiableAt ℝ g u) (h0 : g u ≠ 0) (k : Fin d) :
    pd (fun v => f v / g v) k u = (pd f k u - f u / g u * pd g k u) / g u := by
  have hq : DifferentiableAt ℝ (fun v => f v / g v) u := by
    have := hf.fun_mul (hg.fun_inv h0)
    simpa only [div_eq_mul_inv] using this
  have hne : ∀ᶠ v in 𝓝 u, g v ≠ 0 := hg.continuousAt.eventually_ne h0
  have e : pd (fun v => f v / g v * g v) k u = pd f k u := pd_congr (hne.mono fun v hv => div_mul_cancel₀ _ hv) k
  rw [pd_mul hq hg] at e
  rw [eq_div_iff h0, ← e]
  ring

/-- One entry of the gradient of the mapped functions. -/
theorem piolaEntry_spec {J Ji T dNdu : Mat ℝ} {J' B T' : Matrix (Fin d) (Fin d) ℝ} {n : Nat} {N' : Matrix (Fin n) (Fin d) ℝ} (hd : 0 < d) (hJ : Rep J J') (hJi : Rep Ji B) (hT : Rep T T') (hN : Rep dNdu N') (D val : ℝ)
    (b k : Fin d) (i : Fin n) :
    piolaEntry J Ji T dNdu D val d b i k = some (List.ofFn fun j => (1 / D) * (J' j b * ∑ l, N' i l * B l k) + T' j b * val) := by
  obtain ⟨Z, z1, z2⟩ := fresh_rep d d
  obtain ⟨M, M', m1, m2, m3, m4⟩ := writes_spec ((List.range d).map fun j => (b.1, j, if h : j < d then N' i ⟨j, h⟩ else 0)) (fun w hw => by
    obtain ⟨j, hj, rfl⟩ := List.mem_map.mp hw
    exact ⟨b.2, List.mem_range.mp hj⟩) _ Z z1
  have hM : ∀ a l, M' a l = if a = b then N' i l else 0 := by
    intro a l
    by_cases hab : a = b
    · subst hab
      rw [if_pos rfl]
      refine m3 _ _ _ ⟨(a.1, l.1, if h : l.1 < d then N' i ⟨l.1, h⟩ else 0), List.mem_map.mpr ⟨l.1, List.mem_range.mpr l.2, rfl⟩, rfl, rfl⟩ ?_
      intro w hw w1 w2
      obtain ⟨j, hj, rfl⟩ := List.mem_map.mp hw
      simp only at w2 ⊢
      subst w2
      rw [dif_pos l.2]
    · rw [if_neg hab, m4 _ _ fun w hw hc => ?_, z2]
      obtain ⟨j, hj, rfl⟩ := List.mem_map.mp hw
      exact hab (Fin.ext hc.1.symm)
  have hfold : (List.range d).foldlM (fun (T : Mat ℝ) (j : Nat) => (dNdu.get? ((i.1 : Int) + 1) ((j : Int) + 1)).bind fun x => T.setAt? (b.1 + 1) (j + 1) x)
      ((⟨0, 0, []⟩ : Mat ℝ).resize d d false) = some M := by
    rw [List.foldlM_map] at m1
    rw [← m1]
    refine foldlM_congrS _ _ _ (fun j hj T => ?_) _
    have hj := List.mem_range.mp hj
    rw [rep_get hN i.1 j i.2 hj, Option.bind_some]
    simp only [dif_pos hj]
  have hrep : ∀ c : Nat, List.replicate c (0 : ℝ) = List.ofFn fun _ : Fin c => 0 := fun c => by
    apply List.ext_getElem <;> simp
  have hset : (List.replicate d (0 : ℝ)).set b.1 val = List.ofFn fun a : Fin d => if a = b then val else 0 := by
    apply List.ext_getElem
    · simp
    · intro a h1 h2
      rw [List.getElem_set, List.getElem_ofFn]
      simp only [List.getElem_replicate]
      by_cases h : b.1 = a
      · rw [if_pos h, if_pos (Fin.ext h.symm)]
      · rw [if_neg h, if_neg fun e => h (congrArg Fin.val e).symm]
  unfold piolaEntry
  rw [C60_getColumn hJi k]
  simp only [Option.bind_eq_bind, Option.bind_some]
  rw [hfold]
  simp only [Option.bind_some]
  rw [(C60_mulVec (show RepOp M false M' from m2) hd hd _).1]
  simp only [Option.bind_some]
  rw [(C60_gemv (show RepOp J false J' from hJ) hd hd _ _).1]
  simp only [Option.bind_some]
  rw [hset, (C60_mulVec (show RepOp T false T' from hT) hd hd _).2 _ 1 (by decide)]
  simp only [Option.bind_some, Option.pure_def, Option.some_inj]
  congr 1
  funext j
  rw [if_pos (by decide)]
  simp only [Pi.smul_apply, smul_eq_mul, Matrix.mulVec, dotProduct, hM, ite_mul, zero_mul, mul_ite, mul_zero, Finset.sum_ite_eq', Finset.mem_univ, if_true]
  congr 2
  rw [Finset.sum_eq_single b]
  · simp
  · intro a _ ha
    simp [ha]
  · simp

/-- Component `j` of the Piola transform of a function of basis `b`: `(J e_b)_j N/det J`. -/
noncomputable def piola (x : Pt d → Pt d) (N : Pt d → ℝ) (b j : Fin d) (v : Pt d) : ℝ := jac x v j b * N v / (jac x v).det

theorem det_diff {x : Pt d → Pt d} {u : Pt d} (hd : d = 2 ∨ d = 3) (hx : ∀ i, ContDiffAt ℝ 2 (fun v => x v i) u) : DifferentiableAt ℝ (fun v => (jac x v).det) u := by
  have hj := jac_diff hx
  rcases hd with rfl | rfl
  · have e : (fun v => (jac x v).det) = fun v => jac x v 0 0 * jac x v 1 1 - jac x v 0 1 * jac x v 1 0 := by funext v; rw [Matrix.det_fin_two]
    rw [e]
    exact ((hj 0 0).fun_mul (hj 1 1)).fun_sub ((hj 0 1).fun_mul (hj 1 0))
  · have e : (fun v => (jac x v).det) = fun v => jac x v 0 0 * jac x v 1 1 * jac x v 2 2 - jac x v 0 0 * jac x v 1 2 * jac x v 2 1 - jac x v 0 1 * jac x v 1 0 * jac x v 2 2 +
        jac x v 0 1 * jac x v 1 2 * jac x v 2 0 + jac x v 0 2 * jac x v 1 0 * jac x v 2 1 - jac x v 0 2 * jac x v 1 1 * jac x v 2 0 := by funext v; rw [Matrix.det_fin_three]
    rw [e]
    have t : ∀ a b c, DifferentiableAt ℝ (fun v => jac x v 0 a * jac x v 1 b * jac x v 2 c) u := fun a b c => ((hj 0 a).fun_mul (hj 1 b)).fun_mul (hj 2 c)
    exact (((((t 0 1 2).fun_sub (t 0 2 1)).fun_sub (t 1 0 2)).fun_add (t 1 2 0)).fun_add (t 2 0 1)).fun_sub (t 2 1 0)

theorem pd_piola {x : Pt d → Pt d} {u : Pt d} {N : Pt d → ℝ} (hd : d = 2 ∨ d = 3) (hx : ∀ i, ContDiffAt ℝ 2 (fun v => x v i) u) (hN : DifferentiableAt ℝ N u) (h0 : (jac x u).det ≠ 0) (b j m : Fin d) :
    pd (piola x N b j) m u = (jac x u j b * pd N m u + N u * pd (fun v => jac x v j b) m u) / (jac x u).det - jac x u j b * N u * pd (fun v => (jac x v).det) m u / ((jac x u).det * (jac x u).det) := by
  have hj := jac_diff hx j b
  unfold piola
  rw [pd_div (hj.fun_mul hN) (det_diff hd hx) h0, pd_mul hj hN]
  field_simp

/-- The gradient of the mapped functions. -/
theorem piolaGradient_spec {V : List (List ℝ)} {bfs : List BasisVals} {nf : Nat → Nat} {N : Nat → Nat → Pt d → ℝ} {u : Pt d} {x : Pt d → Pt d} (hd : d = 2 ∨ d = 3) (hV : ValuesAt V d nf N u)
    (hb : ∀ b < d, ∃ v, bfs[b]? = some v ∧ Rep v.dNdu (parGrad u (nf b) (N b))) (hN : ∀ b < d, ∀ i < nf b, DifferentiableAt ℝ (N b i) u) {E J Ji X : Mat ℝ} (hE : E.WF)
    (hx : ∀ i, ContDiffAt ℝ 2 (fun v => x v i) u) (hJ : Rep J (jac x u)) {B : Matrix (Fin d) (Fin d) ℝ} (hJi : Rep Ji B) (hB : jac x u * B = 1)
    (hH : ∃ v H, bfs.getLast? = some v ∧ mul3 X v.d2Ndu2 = some H ∧ Holds3 H fun i k l => pd (pd (fun v => x v i) l) k u) :
    ∃ R R', piolaGradient V E (jac x u).det J Ji X bfs = some R ∧ Rep (r := d * d) (c := ofsOf nf d) R R' ∧
      ∀ (b : Fin d) (i : Nat) (hi : i < nf b) (k j : Fin d) (hkj : k.1 * d + j.1 < d * d), R' ⟨k.1 * d + j.1, hkj⟩ ⟨ofsOf nf b + i, ofs_lt b.2 hi⟩ = ∑ m, pd (piola x (N b i) b j) m u * B m k := by
  obtain ⟨v, H, v1, v2, v3⟩ := hH
  have hdp : 0 < d := by omega
  have h0 : (jac x u).det ≠ 0 := by
    intro h
    have := congrArg Matrix.det hB
    rw [Matrix.det_mul, h, zero_mul, Matrix.det_one] at this
    exact absurd this (by norm_num)
  obtain ⟨s1, s2, s3⟩ := slots_spec (V := V) (nf := nf) (dim := d) fun b hb => by rw [values_getD hV hb]; simp
  obtain ⟨Z, z1⟩ := resize_rep E hE (d * d) (ofsOf nf d)
  obtain ⟨g1, g2⟩ := jacobianGradient_raw (x := x) (u := u) hdp hJi v3
  obtain ⟨r, q1, q2⟩ := detJacGradient_raw hd hx hJ hJi v3 []
  let val : Nat → Nat → Nat → Nat → ℝ := fun b i k j => if h : (b < d ∧ k < d) ∧ j < d then ∑ m, pd (piola x (N b i) ⟨b, h.1.1⟩ ⟨j, h.2⟩) m u * B m ⟨k, h.1.2⟩ else 0
  have hent : ∀ (b k : Fin d) (i : Nat) (hi : i < nf b), ∃ dJ g w, (jacobianGradient Ji H [])[k.1]? = some dJ ∧ (List.ofFn r)[k.1]? = some g ∧ bfs[b.1]? = some w ∧
      piolaEntry J Ji (piolaTmp dJ J g (jac x u).det) w.dNdu (jac x u).det (N b i u) d b i k = some (List.ofFn fun j : Fin d => val b i k j) := by
    intro b k i hi
    obtain ⟨dJ, M', m1, m2, m3⟩ := g2 k
    obtain ⟨w, w1, w2⟩ := hb b.1 b.2
    refine ⟨dJ, r k, w, m1, by simp, w1, ?_⟩
    have hT : Rep (piolaTmp dJ J (r k) (jac x u).det) ((1 / (jac x u).det) • M' + (-(r k) / ((jac x u).det * (jac x u).det)) • jac x u) := by
      unfold piolaTmp
      exact (C60_add (C60_add m2 m2 (1 / (jac x u).det)).2 hJ _).1
    rw [piolaEntry_spec hdp hJ hJi hT w2 _ _ b k ⟨i, hi⟩]
    congr 2
    funext j
    simp only [val]
    rw [dif_pos ⟨⟨b.2, k.2⟩, j.2⟩]
    rw [Matrix.add_apply, Matrix.smul_apply, Matrix.smul_apply, m3 j b, q2 k]
    have e : ∀ m, pd (piola x (N b i) b j) m u * B m k = (1 / (jac x u).det) * (jac x u j b * (parGrad u (nf b) (N b) ⟨i, hi⟩ m * B m k)) +
        ((1 / (jac x u).det) * (pd (fun v => jac x v j b) m u * B m k) + -((pd (fun v => (jac x v).det) m u * B m k) / ((jac x u).det * (jac x u).det) * jac x u j b)) * N b i u := by
      intro m
      rw [pd_piola hd hx (hN b b.2 i hi) h0]
      show _ = (1 / (jac x u).det) * (jac x u j b * (pd (N b i) m u * B m k)) + _
      field_simp
      ring
    rw [Finset.sum_congr rfl fun m _ => e m, Finset.sum_add_distrib, ← Finset.sum_mul, Finset.sum_add_distrib, Finset.sum_neg_distrib, ← Finset.sum_mul, ← Finset.sum_div, ← Finset.mul_sum, ← Finset.mul_sum, ← Finset.mul_sum]
    simp only [smul_eq_mul]
    ring
  set W : List (Nat × Nat × ℝ) := (piolaSlots V d).zipIdx.flatMap fun q => (List.range d).flatMap fun k => (List.range d).map fun j => (k * d + j, q.2, val q.1.1 q.1.2 k j) with hWd
  have hmem : ∀ w ∈ W, ∃ b i c k j, (piolaSlots V d)[c]? = some (b, i) ∧ k < d ∧ j < d ∧ w = (k * d + j, c, val b i k j) := by
    intro w hw
    obtain ⟨q, hq, hw⟩ := List.mem_flatMap.mp hw
    obtain ⟨k, hk, hw⟩ := List.mem_flatMap.mp hw
    obtain ⟨j, hj, rfl⟩ := List.mem_map.mp hw
    exact ⟨q.1.1, q.1.2, q.2, k, j, List.mem_zipIdx_iff_getElem?.mp hq, List.mem_range.mp hk, List.mem_range.mp hj, rfl⟩
  obtain ⟨R, R', t1, t2, t3, _⟩ := writes_spec W (fun w hw => by
    obtain ⟨b, i, c, k, j, hc, hk, hj, rfl⟩ := hmem w hw
    refine ⟨?_, by rw [← s1]; exact (List.getElem?_eq_some_iff.mp hc).1⟩
    calc k * d + j < (k + 1) * d := by rw [Nat.succ_mul]; omega
      _ ≤ d * d := Nat.mul_le_mul_right _ hk) _ Z z1
  refine ⟨R, R', ?_, t2, ?_⟩
  · unfold piolaGradient
    rw [v1]
    simp only [Option.bind_eq_bind, Option.bind_some]
    rw [v2]
    simp only [Option.bind_some]
    rw [q1]
    simp only [Option.bind_some]
    rw [hJ.rows, s1, ← t1, hWd, foldlM_flatMap_some]
    refine foldlM_congrS _ _ _ (fun q hq D => ?_) _
    rw [foldlM_flatMap_some]
    refine foldlM_congrS _ _ _ (fun k hk D => ?_) _
    have hk := List.mem_range.mp hk
    have hq' := List.mem_zipIdx_iff_getElem?.mp hq
    obtain ⟨b1, b2⟩ := s3 _ (List.mem_of_getElem? hq')
    obtain ⟨dJ, g, w, e1, e2, e3, e4⟩ := hent ⟨q.1.1, b1⟩ ⟨k, hk⟩ q.1.2 b2
    rw [e1, e2, e3]
    simp only [Option.bind_some]
    rw [values_at hV b1 b2, e4]
    simp only [Option.bind_some]
    rw [List.foldlM_map]
    refine foldlM_congrS _ _ _ (fun j hj D => ?_) _
    have hj := List.mem_range.mp hj
    rw [List.getElem?_eq_getElem (by simpa using hj), List.getElem_ofFn, Option.bind_some]
  · intro b i hi k j hkj
    refine t3 _ _ _ ⟨(k.1 * d + j.1, ofsOf nf b + i, val b i k j), ?_, rfl, rfl⟩ ?_
    · refine List.mem_flatMap.mpr ⟨((b.1, i), ofsOf nf b + i), List.mem_zipIdx_iff_getElem?.mpr (s2 b.1 i b.2 hi), ?_⟩
      exact List.mem_flatMap.mpr ⟨k.1, List.mem_range.mpr k.2, List.mem_map.mpr ⟨j.1, List.mem_range.mpr j.2, rfl⟩⟩
    · intro w hw w1 w2
      obtain ⟨b', i', c, k', j', hc, hk', hj', rfl⟩ := hmem w hw
      simp only at w1 w2 ⊢
      rw [w2, s2 b.1 i b.2 hi, Option.some_inj] at hc
      obtain ⟨rfl, rfl⟩ := Prod.mk.inj hc
      have hkk : k' = k.1 := by
        have e1 := congrArg (· / d) w1
        simp only [Nat.mul_comm _ d, Nat.mul_add_div hdp, Nat.div_eq_of_lt hj', Nat.div_eq_of_lt j.2, Nat.add_zero] at e1
        exact e1
      subst hkk
      have hjj : j' = j.1 := by omega
      subst hjj
      simp only [val]
      rw [dif_pos ⟨⟨b.2, k.2⟩, j.2⟩]

/-- The divergence of the columns of the Jacobian: `∂(det J)/∂u_b = det J Σ_k ∂(∂x_k/∂u_b)/∂X_k`. -/
theorem jacobi {x : Pt d → Pt d} {u : Pt d} (hd : d = 2 ∨ d = 3) (hx : ∀ i, ContDiffAt ℝ 2 (fun v => x v i) u) {B : Matrix (Fin d) (Fin d) ℝ} (hB : jac x u * B = 1) (b : Fin d) :
    pd (fun v => (jac x v).det) b u = (jac x u).det * ∑ k, ∑ m, pd (fun v => jac x v k b) m u * B m k := by
  have h0 : (jac x u).det ≠ 0 := by
    intro h
    have := congrArg Matrix.det hB
    rw [Matrix.det_mul, h, zero_mul, Matrix.det_one] at this
    exact absurd this (by norm_num)
  have hadj : (jac x u).det • B = (jac x u).adjugate := by
    have := congrArg (fun M => (jac x u).adjugate * M) hB
    simp only [← Matrix.mul_assoc, Matrix.adjugate_mul, Matrix.mul_one] at this
    rw [← this]
    ext i j
    simp [Matrix.smul_apply]
  have hsym : ∀ k m, pd (fun v => jac x v k b) m u = pd (pd (fun v => x v k) m) b u := fun k m => pd_symm (hx k) m b
  have e : (jac x u).det * ∑ k, ∑ m, pd (fun v => jac x v k b) m u * B m k = ∑ k, ∑ m, pd (pd (fun v => x v k) m) b u * (jac x u).adjugate m k := by
    rw [Finset.mul_sum]
    refine Finset.sum_congr rfl fun k _ => ?_
    rw [Finset.mul_sum]
    refine Finset.sum_congr rfl fun m _ => ?_
    rw [← hadj, Matrix.smul_apply, hsym k m, smul_eq_mul]
    ring
  rw [e]
  rcases hd with rfl | rfl
  · rw [detGrad2 hx b]
    simp only [Fin.sum_univ_two, Matrix.adjugate_fin_two]
    simp
    ring
  · rw [detGrad3 hx b]
    simp only [Fin.sum_univ_three, Matrix.adjugate_fin_three]
    simp
    ring

/-- The divergence of a mapped function: `Σ_k ∂P_k/∂X_k = ∂N/∂u_b / det J`. -/
theorem piola_divergence {x : Pt d → Pt d} {u : Pt d} {N : Pt d → ℝ} (hd : d = 2 ∨ d = 3) (hx : ∀ i, ContDiffAt ℝ 2 (fun v => x v i) u) (hN : DifferentiableAt ℝ N u) {B : Matrix (Fin d) (Fin d) ℝ}
    (hB : jac x u * B = 1) (b : Fin d) : ∑ k, ∑ m, pd (piola x N b k) m u * B m k = pd N b u / (jac x u).det := by
  have h0 : (jac x u).det ≠ 0 := by
    intro h
    have := congrArg Matrix.det hB
    rw [Matrix.det_mul, h, zero_mul, Matrix.det_one] at this
    exact absurd this (by norm_num)
  have hBJ : B * jac x u = 1 := mul_eq_one_comm.mp hB
  have hdel : ∀ f : Fin d → ℝ, ∑ k, ∑ m, jac x u k b * f m * B m k = f b := by
    intro f
    rw [Finset.sum_comm]
    have : ∀ m, ∑ k, jac x u k b * f m * B m k = f m * (B * jac x u) m b := by
      intro m
      rw [Matrix.mul_apply, Finset.mul_sum]
      exact Finset.sum_congr rfl fun k _ => by ring
    simp only [this, hBJ, Matrix.one_apply, mul_ite, mul_one, mul_zero, Finset.sum_ite_eq', Finset.mem_univ, if_true]
  have e : ∀ k m, pd (piola x N b k) m u * B m k = jac x u k b * (pd N m u / (jac x u).det - N u * pd (fun v => (jac x v).det) m u / ((jac x u).det * (jac x u).det)) * B m k +
      N u / (jac x u).det * (pd (fun v => jac x v k b) m u * B m k) := by
    intro k m
    rw [pd_piola hd hx hN h0]
    field_simp
    ring
  simp only [e, Finset.sum_add_distrib]
  rw [hdel fun m => pd N m u / (jac x u).det - N u * pd (fun v => (jac x v).det) m u / ((jac x u).det * (jac x u).det)]
  simp only [← Finset.mul_sum]
  rw [jacobi hd hx hB b]
  field_simp
  ring

/-- What is known where the Piola mapping is used: the first `d` bases give the directions, the last one the geometry `x`. -/
structure PiolaAt (fe : MxFE) (bfs : List BasisVals) (g : Nat) (nf : Nat → Nat) (N : Nat → Nat → Pt d → ℝ) (u : Pt d) : Prop where
  bases : BasesAt bfs (g + 1) nf N u
  dirs : d ≤ g + 1
  vals : ValuesAt fe.basis d nf N u
  smooth : ∀ i < nf g, ContDiffAt ℝ 2 (N g i) u
  der2 : ∃ v, bfs[g]? = some v ∧ Holds3 v.d2Ndu2 fun (i : Fin (nf g)) (k l : Fin d) => pd (pd (N g i) l) k u
  wfP : fe.P.WF
  wfD : fe.dPdX.WF

/-- The Piola mapping in two and three dimensions: function `i` of basis `b` is column `ofs b + i`; `P` holds the components of the vector field `J e_b N/det J`,
`dPdX` its derivatives with respect to the physical coordinates (row `k d + j`: component `j` in direction `k`), and the divergence is `∂N/∂u_b / det J`. -/
theorem C62_piola {fe : MxFE} {Ji X : Mat ℝ} {bfs : List BasisVals} {nf : Nat → Nat} {N : Nat → Nat → Pt d → ℝ} {u : Pt d} (hd : d = 2 ∨ d = 3) (g : Nat) (h : PiolaAt fe bfs g nf N u)
    {X' : Matrix (Fin d) (Fin (nf g)) ℝ} (hX : Rep X X') {B : Matrix (Fin d) (Fin d) ℝ} (hJi : Rep Ji B) (hB : jac (geoOf nf N g X') u * B = 1) :
    ∃ fe', piolaMapping fe (jac (geoOf nf N g X') u).det Ji X bfs = some fe' ∧ fe'.basis = fe.basis ∧ fe'.grad = fe.grad ∧
      (fe'.P.nrow = d ∧ fe'.P.ncol = ∑ b ∈ Finset.range d, nf b) ∧ (fe'.dPdX.nrow = d * d ∧ fe'.dPdX.ncol = ∑ b ∈ Finset.range d, nf b) ∧
      ∀ (b : Fin d) (i : Nat), i < nf b →
        (∀ j : Fin d, fe'.P.get? (j.1 + 1) ((∑ c ∈ Finset.range b, nf c) + i + 1 : Nat) = some (piola (geoOf nf N g X') (N b i) b j u)) ∧
        ∃ val : Fin d → Fin d → ℝ, (∀ k j, fe'.dPdX.get? ((k.1 * d + j.1 : Nat) + 1) ((∑ c ∈ Finset.range b, nf c) + i + 1 : Nat) = some (val k j)) ∧
          (∀ k j G, DifferentiableAt ℝ G (geoOf nf N g X' u) → Pulls (geoOf nf N g X') u (piola (geoOf nf N g X') (N b i) b j) G → val k j = pd G k (geoOf nf N g X' u)) ∧
          ∑ k, val k k = pd (N b i) b u / (jac (geoOf nf N g X') u).det := by
  obtain ⟨v, v1, v2⟩ := h.bases.der g (by omega)
  have hlast : bfs.getLast? = some v := by rw [List.getLast?_eq_getElem?, h.bases.len, Nat.add_sub_cancel, v1]
  have hNd : ∀ a : Fin (nf g), DifferentiableAt ℝ (N g a) u := fun a => h.bases.diff g (by omega) a.1 a.2
  have hNc : ∀ a : Fin (nf g), ContDiffAt ℝ 2 (N g a) u := fun a => h.smooth a.1 a.2
  have hxc : ∀ i, ContDiffAt ℝ 2 (fun v => geoOf nf N g X' v i) u := geo_contDiff hNc X'
  obtain ⟨J, j1, j2⟩ := C60_multiply (C := (⟨0, 0, []⟩ : Mat ℝ)) (A := X) (B := v.dNdu) (tA := false) (tB := false) hX v2 rfl 1
  rw [one_smul, parGrad, ← jac_geo hNd X'] at j2
  have hH : ∃ v H, bfs.getLast? = some v ∧ mul3 X v.d2Ndu2 = some H ∧ Holds3 H fun i k l => pd (pd (fun v => geoOf nf N g X' v i) l) k u := by
    obtain ⟨w, w1, w2⟩ := h.der2
    have hvw : w = v := by rw [v1, Option.some_inj] at w1; exact w1.symm
    subst hvw
    obtain ⟨H, h1, h2⟩ := mul3_holds hX w2
    refine ⟨w, H, hlast, h1, h2.1, h2.2.1, h2.2.2.1, fun i k l => ?_⟩
    exact (h2.2.2.2 i k l).trans (pd2_geo hNc X' i k l).symm
  obtain ⟨P, P', p1, p2, p3⟩ := piolaBasis_spec h.vals h.wfP j2 (jac (geoOf nf N g X') u).det
  obtain ⟨R, R', r1, r2, r3⟩ := piolaGradient_spec (x := geoOf nf N g X') hd h.vals (fun b hb => h.bases.der b (by have := h.dirs; omega)) (fun b hb => h.bases.diff b (by have := h.dirs; omega)) h.wfD hxc j2 hJi hB hH
  refine ⟨({ fe with P := P, dPdX := R } : MxFE), ?_, rfl, rfl, ⟨p2.rows, p2.cols⟩, ⟨r2.rows, r2.cols⟩, fun b i hi => ⟨fun j => ?_, ?_⟩⟩
  · unfold piolaMapping
    rw [hlast]
    simp only [Option.bind_eq_bind, Option.bind_some]
    rw [j1]
    simp only [Option.bind_some]
    rw [p1]
    simp only [Option.bind_some]
    rw [r1]; rfl
  · have := rep_get p2 j.1 (ofsOf nf b + i) j.2 (ofs_lt b.2 hi)
    rw [p3 b i hi ⟨j.1, j.2⟩] at this
    exact_mod_cast this
  · refine ⟨fun k j => ∑ m, pd (piola (geoOf nf N g X') (N b i) b j) m u * B m k, fun k j => ?_, fun k j G hG hP => ?_, ?_⟩
    · have hkj : k.1 * d + j.1 < d * d := by
        calc k.1 * d + j.1 < (k.1 + 1) * d := by rw [Nat.succ_mul]; omega
          _ ≤ d * d := Nat.mul_le_mul_right _ k.2
      have := rep_get r2 (k.1 * d + j.1) (ofsOf nf b + i) hkj (ofs_lt b.2 hi)
      rw [r3 b i hi k j hkj] at this
      exact_mod_cast this
    · exact pulled_gradient_inv (fun i => (hxc i).differentiableAt (by simp)) hG hP hB k
    · exact piola_divergence hd hxc (h.bases.diff b (by have := h.dirs; omega) i hi) hB b

end IFEM.Props
