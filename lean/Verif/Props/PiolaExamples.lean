import Verif.Props.Piola
import Verif.Props.PullBack
import Verif.Props.MappingExamples
/-!
# C62: concrete cases, and the limits of the functions
-/
namespace IFEM.Props
open IFEM IFEM.Spec IFEM.Lem IFEM.Mapping
open scoped Topology

variable {d s n : Nat}

/-- Called with another number than the Jacobian determinant, the components are scaled by `det J/D`: on boundaries the callers pass the dilation of the curve (ASMs2Dmx.C:781-786). -/
theorem C62_piola_factor {V : List (List ℝ)} {nf : Nat → Nat} {N : Nat → Nat → Pt d → ℝ} {u : Pt d} (hV : ValuesAt V d nf N u) {P J : Mat ℝ} (hP : P.WF) {x : Pt d → Pt d} (hJ : Rep J (jac x u))
    (h0 : (jac x u).det ≠ 0) (D : ℝ) :
    ∃ R, piolaBasis V P D J = some R ∧ R.nrow = d ∧ R.ncol = ∑ b ∈ Finset.range d, nf b ∧ ∀ (b : Fin d) (i : Nat), i < nf b → ∀ j : Fin d,
      R.get? (j.1 + 1) ((∑ c ∈ Finset.range b, nf c) + i + 1 : Nat) = some ((jac x u).det / D * piola x (N b i) b j u) := by
  obtain ⟨R, R', r1, r2, r3⟩ := piolaBasis_spec hV hP hJ D
  refine ⟨R, r1, r2.rows, r2.cols, fun b i hi j => ?_⟩
  have := rep_get r2 j.1 (ofsOf nf b + i) j.2 (ofs_lt b.2 hi)
  rw [r3 b i hi ⟨j.1, j.2⟩] at this
  have e : (jac x u).det / D * piola x (N b i) b j u = jac x u j b * N b i u / D := by
    unfold piola
    field_simp
  rw [e]
  exact_mod_cast this

/-- The two coordinate functions of the plane. -/
def coordN (_ : Nat) (i : Nat) (v : Pt 2) : ℝ := if i = 0 then v 0 else v 1

theorem coordN_fin (b : Nat) (i : Fin 2) : coordN b i = fun v => v i := by
  funext v
  fin_cases i <;> simp [coordN]

def coordVals : BasisVals := ⟨⟨2, 2, [1, 0, 0, 1]⟩, ⟨2, 2, 2, fun _ _ _ => 0⟩⟩

/-- An element with three bases and a point `u`; all bases are the two coordinate functions. -/
def exampleFE (u : Pt 2) : MxFE := ⟨[[u 0, u 1], [u 0, u 1], [u 0, u 1]], [⟨0, 0, []⟩, ⟨0, 0, []⟩, ⟨0, 0, []⟩], [⟨0, 0, 0, fun _ _ _ => 0⟩, ⟨0, 0, 0, fun _ _ _ => 0⟩, ⟨0, 0, 0, fun _ _ _ => 0⟩], ⟨0, 0, []⟩, ⟨0, 0, []⟩, 0⟩

theorem coord_parGrad (u : Pt 2) (b : Nat) : Rep coordVals.dNdu (parGrad u 2 (coordN b)) := by
  have : parGrad u 2 (coordN b) = Matrix.of fun a k => pd (fun v : Pt 2 => v a) k u := by
    ext a k
    show pd (coordN b a) k u = pd (fun v : Pt 2 => v a) k u
    rw [coordN_fin]
  rw [this]
  exact ident_rep u

theorem coord_second (a l k : Fin 2) (u : Pt 2) : pd (pd (fun v : Pt 2 => v a) l) k u = 0 := by
  have : pd (fun v : Pt 2 => v a) l = fun _ => if a = l then 1 else 0 := by
    funext v
    exact pd_coord a l v
  rw [this]
  unfold pd
  simp

theorem coord_holds (u : Pt 2) (b : Nat) : Holds3 coordVals.d2Ndu2 fun (i : Fin 2) (k l : Fin 2) => pd (pd (coordN b i) l) k u :=
  ⟨rfl, rfl, rfl, fun a k l => by
    show (0 : ℝ) = pd (pd (coordN b a) l) k u
    rw [coordN_fin, coord_second]⟩

theorem coord_three {b : Nat} (hb : b < 3) : [coordVals, coordVals, coordVals][b]? = some coordVals := by
  interval_cases b <;> rfl

theorem coord_bases (u : Pt 2) : BasesAt [coordVals, coordVals, coordVals] 3 (fun _ => 2) coordN u :=
  ⟨rfl, fun b _ i hi => by
    have := coordN_fin b ⟨i, hi⟩
    simp only at this
    rw [this]
    exact (coord_smooth (q := 1) _ u).differentiableAt (by simp), fun b hb => ⟨coordVals, coord_three hb, coord_parGrad u b⟩⟩

theorem coord_geo : geoOf (fun _ => 2) coordN 2 twice = geo twice fun a v => v a := by
  unfold geoOf
  congr 1
  funext a
  exact coordN_fin 2 a

theorem coord_smoothN (u : Pt 2) (b i : Nat) (hi : i < 2) : ContDiffAt ℝ 2 (coordN b i) u := by
  have := coordN_fin b ⟨i, hi⟩
  simp only at this
  rw [this]
  exact coord_smooth _ u

theorem coord_piolaAt (u : Pt 2) : PiolaAt (exampleFE u) [coordVals, coordVals, coordVals] 2 (fun _ => 2) coordN u where
  bases := coord_bases u
  dirs := by omega
  vals := ⟨by simp [exampleFE], fun b hb => by
    have e : (List.ofFn fun i : Fin 2 => coordN b i u) = [u 0, u 1] := by simp [coordN]
    rw [e]
    interval_cases b <;> rfl⟩
  smooth := fun i hi => coord_smoothN u 2 i hi
  der2 := ⟨coordVals, rfl, coord_holds u 2⟩
  wfP := rfl
  wfD := rfl

theorem half_rep : Rep (⟨2, 2, [1 / 2, 0, 0, 1 / 2]⟩ : Mat ℝ) (Matrix.of fun i a : Fin 2 => if i = a then (1 / 2 : ℝ) else 0) :=
  ⟨rfl, rfl, rfl, fun i j => by fin_cases i <;> fin_cases j <;> simp⟩

theorem twice_half : twice * (Matrix.of fun i a : Fin 2 => if i = a then (1 / 2 : ℝ) else 0) = 1 := by
  ext i j
  rw [Matrix.mul_apply, Fin.sum_univ_two]
  fin_cases i <;> fin_cases j <;> simp [twice]

/-- A concrete case of `C62_piola`: the mapping `x = 2 u`; the second function of the second basis, `u_1` in direction 1, has divergence 1/4. -/
example (u : Pt 2) : ∃ fe', ∃ val : Fin 2 → Fin 2 → ℝ, piolaMapping (exampleFE u) 4 ⟨2, 2, [1 / 2, 0, 0, 1 / 2]⟩ ⟨2, 2, [2, 0, 0, 2]⟩ [coordVals, coordVals, coordVals] = some fe' ∧ fe'.P.ncol = 4 ∧
    (∀ k j : Fin 2, fe'.dPdX.get? ((k.1 * 2 + j.1 : Nat) + 1) 4 = some (val k j)) ∧ ∑ k, val k k = 1 / 4 := by
  obtain ⟨fe', h1, _, _, h2, _, h3⟩ := C62_piola (Or.inl rfl) 2 (coord_piolaAt u) (X' := twice) twice_rep half_rep (by rw [coord_geo, twice_jac]; exact twice_half)
  rw [coord_geo, twice_jac, twice_det] at h1
  obtain ⟨_, val, v1, _, v3⟩ := h3 1 1 (by decide)
  refine ⟨fe', val, h1, by rw [h2.2]; rfl, ?_, ?_⟩
  · intro k j
    have := v1 k j
    simpa using this
  · rw [v3, coord_geo, twice_jac, twice_det]
    have := coordN_fin 1 1
    simp only [Fin.val_one] at this
    rw [show ((1 : Fin 2) : Nat) = 1 from rfl, this, pd_coord]
    simp

/-- A concrete case of `C62_jacobian` and `C62_hessian`. -/
example (u : Pt 2) : ∃ fe' Ji fe'' H, mxJacobian (exampleFE u) ⟨0, 0, []⟩ ⟨2, 2, [2, 0, 0, 2]⟩ 3 [coordVals, coordVals, coordVals] = some (true, fe', Ji) ∧ fe'.detJxW = 4 ∧
    mxHessian { fe' with hess := (exampleFE u).hess } ⟨0, 0, 0, fun _ _ _ => 0⟩ Ji ⟨2, 2, [2, 0, 0, 2]⟩ 3 [coordVals, coordVals, coordVals] = some (true, fe'', H) := by
  obtain ⟨fe', Ji, Ji', h1, h2, h3, h4, h5, h6, h7⟩ := C62_jacobian (fe := exampleFE u) (J0 := ⟨0, 0, []⟩) (u := u) (by omega) 2 (by simp [exampleFE]) (coord_bases u) rfl
    (by simp [exampleFE, Mat.WF]) rfl (X' := twice) twice_rep
    (by rw [coord_geo, twice_jac, twice_det]; unfold epsZ; norm_num) (by rw [coord_geo, twice_jac, twice_det]; norm_num)
  rw [coord_geo, twice_jac, twice_det] at h2
  have hb : fe'.basis.length = 3 := by rw [h5]; rfl
  obtain ⟨fe'', H, k1, _⟩ := C62_hessian (fe := { fe' with hess := (exampleFE u).hess }) (H0 := ⟨0, 0, 0, fun _ _ _ => 0⟩) (u := u) (N := coordN) (nf := fun _ => 2) (bfs := [coordVals, coordVals, coordVals]) (by omega) 2 (by rw [hb]; decide)
    ⟨by rw [hb]; rfl, fun _ _ => by decide, fun b _ i hi => coord_smoothN u b i hi, fun b hb' => ⟨coordVals, coord_three (by rw [hb] at hb'; exact hb'), coord_holds u b⟩⟩
    (by rw [hb]; rfl) (X' := twice) twice_rep h3 h4 (fun b hb' => h7 b (by rw [hb] at hb'; exact hb'))
  exact ⟨fe', Ji, fe'', H, h1, h2, k1⟩

/-- A concrete case of `C61_pull_back`. -/
example (u : Pt 2) : ∃ F, ContDiffAt ℝ (2 : ℕ) F (geo twice (fun a v => v a) u) ∧ Pulls (geo twice fun a v => v a) u (fun v => v 0) F :=
  C61_pull_back (by decide) (geo_contDiff (fun a => coord_smooth a u) twice) (by rw [twice_jac, twice_det]; norm_num) (coord_smooth 0 u)

end IFEM.Props
