import Verif.Props.Mapping
/-!
# C61: second and third derivatives with respect to physical coordinates
-/
namespace IFEM.Props
open IFEM IFEM.Spec IFEM.Lem IFEM.Mapping
open scoped Topology

variable {d s n : Nat}

theorem cd_one {f : Pt d → ℝ} {u : Pt d} (h : ContDiffAt ℝ 2 f u) : ContDiffAt ℝ (((1 : ℕ) : ℕ∞) + 1) f u := by
  rw [show ((((1 : ℕ) : ℕ∞) : WithTop ℕ∞) + 1) = 2 from by norm_num]
  exact h

/-- The chain rule for second derivatives. -/
theorem pd2_comp {x : Pt d → Pt s} {F : Pt s → ℝ} {u : Pt d} (hx : ∀ i, ContDiffAt ℝ 2 (fun v => x v i) u) (hF : ContDiffAt ℝ 2 F (x u)) (k l : Fin d) :
    pd (pd (fun v => F (x v)) l) k u =
      ∑ j, (∑ i, pd (pd F j) i (x u) * pd (fun v => x v i) k u) * pd (fun v => x v j) l u + ∑ j, pd F j (x u) * pd (pd (fun v => x v j) l) k u := by
  have hxc : ContinuousAt x u := continuousAt_pi.mpr fun i => (hx i).continuousAt
  have hFe : ∀ᶠ v in 𝓝 u, DifferentiableAt ℝ F (x v) := by
    have h1 : ∀ᶠ y in 𝓝 (x u), ContDiffAt ℝ 2 F y := hF.eventually (by simp)
    filter_upwards [hxc.eventually h1] with v hv
    exact hv.differentiableAt (by simp)
  have hxe : ∀ᶠ v in 𝓝 u, ∀ i, DifferentiableAt ℝ (fun v => x v i) v := by
    rw [Filter.eventually_all]
    intro i
    have h1 : ∀ᶠ v in 𝓝 u, ContDiffAt ℝ 2 (fun v => x v i) v := (hx i).eventually (by simp)
    filter_upwards [h1] with v hv
    exact hv.differentiableAt (by simp)
  have hnear : pd (fun v => F (x v)) l =ᶠ[𝓝 u] fun v => ∑ j, pd F j (x v) * pd (fun v => x v j) l v := by
    filter_upwards [hFe, hxe] with v h1 h2
    exact pd_comp h1 h2 l
  have hdx : ∀ i, DifferentiableAt ℝ (fun v => x v i) u := fun i => (hx i).differentiableAt (by simp)
  have hdF : ∀ j, DifferentiableAt ℝ (pd F j) (x u) := fun j =>
    (pd_contDiffAt (m := 1) (cd_one hF) j).differentiableAt (by simp)
  have hd1 : ∀ j, DifferentiableAt ℝ (fun v => pd F j (x v)) u := fun j =>
    DifferentiableAt.comp u (hdF j) (differentiableAt_pi.mpr hdx)
  have hd2 : ∀ j, DifferentiableAt ℝ (pd (fun v => x v j) l) u := fun j =>
    (pd_contDiffAt (m := 1) (cd_one (hx j)) l).differentiableAt (by simp)
  rw [pd_congr hnear k, pd_sum _ fun j _ => (hd1 j).fun_mul (hd2 j), ← Finset.sum_add_distrib]
  refine Finset.sum_congr rfl fun j _ => ?_
  rw [pd_mul (hd1 j) (hd2 j), pd_comp (hdF j) hdx k]
  ring

theorem foldl_sub_sum {X : Type} (L : List X) (f : X → ℝ) (y : ℝ) : L.foldl (fun y x => y - f x) y = y - (L.map f).sum := by
  induction L generalizing y with
  | nil => simp
  | cons x L ih => rw [List.foldl_cons, ih, List.map_cons, List.sum_cons]; ring

/-- The loops of `Hessian` compute this sum. -/
theorem hessEntry_sum (H d2 : Arr3) (Ji D : Mat ℝ) (nsd m i1 i2 : Nat) :
    hessEntry H d2 Ji D nsd m i1 i2 = ∑ k : Fin nsd, ∑ l : Fin nsd,
      (d2.get m (k.1 + 1) (l.1 + 1) - ∑ i : Fin nsd, D.val m ((i.1 : Int) + 1) * H.get (i.1 + 1) (k.1 + 1) (l.1 + 1)) *
        (Ji.val ((k.1 : Int) + 1) i1 * Ji.val ((l.1 : Int) + 1) i2) := by
  unfold hessEntry
  have : ∀ (L : List (Nat × Nat)) (y : ℝ), L.foldl (fun v q =>
      (List.range nsd).foldl (fun (v : ℝ) (i6 : Nat) => v - D.val m ((i6 : Int) + 1) * H.get (i6 + 1) (q.1 + 1) (q.2 + 1) * (Ji.val ((q.1 : Int) + 1) i1 * Ji.val ((q.2 : Int) + 1) i2))
      (v + d2.get m (q.1 + 1) (q.2 + 1) * (Ji.val ((q.1 : Int) + 1) i1 * Ji.val ((q.2 : Int) + 1) i2))) y =
      y + (L.map fun q => (d2.get m (q.1 + 1) (q.2 + 1) - ∑ i : Fin nsd, D.val m ((i.1 : Int) + 1) * H.get (i.1 + 1) (q.1 + 1) (q.2 + 1)) *
        (Ji.val ((q.1 : Int) + 1) i1 * Ji.val ((q.2 : Int) + 1) i2)).sum := by
    intro L
    induction L with
    | nil => intro y; simp
    | cons q L ih =>
      intro y
      rw [List.foldl_cons, ih, List.map_cons, List.sum_cons, foldl_sub_sum,
        sum_range_fin nsd fun i6 => D.val m ((i6 : Int) + 1) * H.get (i6 + 1) (q.1 + 1) (q.2 + 1) * (Ji.val ((q.1 : Int) + 1) i1 * Ji.val ((q.2 : Int) + 1) i2),
        ← Finset.sum_mul]
      ring
  rw [this, zero_add, sum_pairs]

/-- Solving the chain rule for the second derivatives of a function of the physical coordinates. -/
theorem pulled_hessian {x : Pt d → Pt d} {u : Pt d} {N F : Pt d → ℝ} (hx : ∀ i, ContDiffAt ℝ 2 (fun v => x v i) u) (hF : ContDiffAt ℝ 2 F (x u))
    (h : Pulls x u N F) {B : Matrix (Fin d) (Fin d) ℝ} (hB : jac x u * B = 1) (p q : Fin d) :
    ∑ k, ∑ l, (pd (pd N l) k u - ∑ i, pd F i (x u) * pd (pd (fun v => x v i) l) k u) * (B k p * B l q) = pd (pd F q) p (x u) := by
  have e0 : ∀ k l, pd (pd N l) k u - ∑ i, pd F i (x u) * pd (pd (fun v => x v i) l) k u =
      ∑ j, ∑ i, pd (pd F j) i (x u) * jac x u i k * jac x u j l := by
    intro k l
    rw [← pd_congr (pd_eventually h l) k, pd2_comp hx hF k l, add_sub_cancel_right]
    exact Finset.sum_congr rfl fun j _ => by rw [Finset.sum_mul]; rfl
  have e1 : ∀ k l, (∑ j, ∑ i, pd (pd F j) i (x u) * jac x u i k * jac x u j l) * (B k p * B l q) =
      ∑ j, ∑ i, pd (pd F j) i (x u) * (jac x u i k * B k p) * (jac x u j l * B l q) := by
    intro k l
    rw [Finset.sum_mul]
    refine Finset.sum_congr rfl fun j _ => ?_
    rw [Finset.sum_mul]
    exact Finset.sum_congr rfl fun i _ => by ring
  rw [Finset.sum_congr rfl fun k _ => Finset.sum_congr rfl fun l _ => by rw [e0 k l, e1 k l]]
  have hB' : ∀ i j, ∑ k, jac x u i k * B k j = (1 : Matrix (Fin d) (Fin d) ℝ) i j := fun i j => by rw [← hB, Matrix.mul_apply]
  calc ∑ k, ∑ l, ∑ j, ∑ i, pd (pd F j) i (x u) * (jac x u i k * B k p) * (jac x u j l * B l q)
      = ∑ j, ∑ i, ∑ k, ∑ l, pd (pd F j) i (x u) * (jac x u i k * B k p) * (jac x u j l * B l q) := by
        rw [Finset.sum_congr rfl fun k _ => Finset.sum_comm, Finset.sum_comm]
        refine Finset.sum_congr rfl fun j _ => ?_
        rw [Finset.sum_congr rfl fun k _ => Finset.sum_comm, Finset.sum_comm]
    _ = ∑ j, ∑ i, pd (pd F j) i (x u) * (1 : Matrix (Fin d) (Fin d) ℝ) i p * (1 : Matrix (Fin d) (Fin d) ℝ) j q := by
        refine Finset.sum_congr rfl fun j _ => Finset.sum_congr rfl fun i _ => ?_
        rw [← hB' i p, ← hB' j q, mul_assoc, Finset.sum_mul_sum, Finset.mul_sum]
        refine Finset.sum_congr rfl fun k _ => ?_
        rw [Finset.mul_sum]
        exact Finset.sum_congr rfl fun l _ => by ring
    _ = pd (pd F q) p (x u) := by
        rw [Finset.sum_eq_single q, Finset.sum_eq_single p]
        · simp
        · intro b _ hb; simp [Matrix.one_apply_ne hb]
        · simp
        · intro b _ hb; simp [Matrix.one_apply_ne hb]
        · simp

/-- An array with three indices holds the values `f`. -/
def Holds3 (T : Arr3) (f : Fin n → Fin d → Fin s → ℝ) : Prop := T.n1 = n ∧ T.n2 = d ∧ T.n3 = s ∧ ∀ a k l, T.get (a.1 + 1) (k.1 + 1) (l.1 + 1) = f a k l

theorem mul3_holds {X : Mat ℝ} {X' : Matrix (Fin s) (Fin n) ℝ} (hX : Rep X X') {T : Arr3} {f : Fin n → Fin d → Fin d → ℝ} (hT : Holds3 T f) :
    ∃ H, mul3 X T = some H ∧ Holds3 H fun i k l => ∑ a, X' i a * f a k l := by
  unfold mul3
  rw [if_pos (hX.cols.trans hT.1.symm)]
  refine ⟨_, rfl, hX.rows, hT.2.1, hT.2.2.1, fun i k l => ?_⟩
  dsimp only
  rw [foldl_add_sum (List.range X.ncol) (fun a : Nat => X.val ((i.1 + 1 : Nat) : Int) ((a : Int) + 1) * T.get (a + 1) (k.1 + 1) (l.1 + 1)) 0, zero_add, hX.cols,
    sum_range_fin n fun a => X.val ((i.1 + 1 : Nat) : Int) ((a : Int) + 1) * T.get (a + 1) (k.1 + 1) (l.1 + 1)]
  refine Finset.sum_congr rfl fun a _ => ?_
  rw [hT.2.2.2 a k l]
  congr 1
  have := rep_val hX i.1 a.1 i.2 a.2
  push_cast
  exact this

/-- The second derivatives of the geometry mapping. -/
theorem pd2_geo {N : Fin n → Pt d → ℝ} {u : Pt d} (h : ∀ a, ContDiffAt ℝ 2 (N a) u) (X : Matrix (Fin s) (Fin n) ℝ) (i : Fin s) (k l : Fin d) :
    pd (pd (fun v => geo X N v i) l) k u = ∑ a, X i a * pd (pd (N a) l) k u := by
  have hd : ∀ᶠ v in 𝓝 u, ∀ a, DifferentiableAt ℝ (N a) v := by
    rw [Filter.eventually_all]
    intro a
    have h1 : ∀ᶠ v in 𝓝 u, ContDiffAt ℝ 2 (N a) v := (h a).eventually (by simp)
    filter_upwards [h1] with v hv
    exact hv.differentiableAt (by simp)
  have hnear : pd (fun v => geo X N v i) l =ᶠ[𝓝 u] fun v => ∑ a, X i a * pd (N a) l v := by
    filter_upwards [hd] with v hv
    unfold geo
    rw [pd_sum _ fun a _ => (hv a).const_mul _]
    exact Finset.sum_congr rfl fun a _ => pd_const_mul (hv a) _ l
  have hd2 : ∀ a, DifferentiableAt ℝ (pd (N a) l) u := fun a => (pd_contDiffAt (m := 1) (cd_one (h a)) l).differentiableAt (by simp)
  rw [pd_congr hnear k, pd_sum _ fun a _ => (hd2 a).const_mul _]
  exact Finset.sum_congr rfl fun a _ => pd_const_mul (hd2 a) _ k

theorem geo_contDiff {N : Fin n → Pt d → ℝ} {u : Pt d} (h : ∀ a, ContDiffAt ℝ 2 (N a) u) (X : Matrix (Fin s) (Fin n) ℝ) (i : Fin s) :
    ContDiffAt ℝ 2 (fun v => geo X N v i) u := by
  unfold geo
  exact ContDiffAt.sum fun a _ => contDiffAt_const.mul (h a)

/-- `Hessian` for a geometry mapping whose second derivatives are known already. -/
theorem hessian_known {H D0 d2 : Arr3} {Ji X D : Mat ℝ} {X' : Matrix (Fin d) (Fin s) ℝ} {B : Matrix (Fin d) (Fin d) ℝ} {D' : Matrix (Fin n) (Fin d) ℝ} {N : Fin n → Pt d → ℝ} {x : Pt d → Pt d} {u : Pt d}
    (hn : 0 < n) (hd0 : 0 < d) (hX : Rep X X') (hx : ∀ i, ContDiffAt ℝ 2 (fun v => x v i) u) (hN2 : Holds3 d2 fun a k l => pd (pd (N a) l) k u) (hJi : Rep Ji B) (hB : jac x u * B = 1)
    (hD : Rep D D') (hDv : ∀ a F, DifferentiableAt ℝ F (x u) → Pulls x u (N a) F → ∀ j, D' a j = pd F j (x u)) (hH : Holds3 H fun i k l => pd (pd (fun v => x v i) l) k u) :
    ∃ R, (D.elem.isEmpty = false ∧ hessian H D0 Ji X d2 D false = (true, H, R)) ∧
      (R = ⟨D.nrow, X.nrow, X.nrow, fun m i1 i2 => if i2 ≤ i1 then hessEntry H d2 Ji D X.nrow m i1 i2 else hessEntry H d2 Ji D X.nrow m i2 i1⟩) ∧
      ∃ r : Fin n → Fin d → Fin d → ℝ, Holds3 R r ∧ ∀ a F, ContDiffAt ℝ 2 F (x u) → Pulls x u (N a) F → ∀ p q, r a p q = pd (pd F q) p (x u) := by
  have hne : D.elem.isEmpty = false := by
    rw [Bool.eq_false_iff]
    intro e
    have := hD.size
    rw [List.isEmpty_iff.mp e] at this
    have hp : 0 < n * d := Nat.mul_pos hn hd0
    simp at this
    omega
  refine ⟨_, ⟨hne, ?_⟩, rfl, fun a k l => if l.1 + 1 ≤ k.1 + 1 then hessEntry H d2 Ji D d (a.1 + 1) (k.1 + 1) (l.1 + 1) else hessEntry H d2 Ji D d (a.1 + 1) (l.1 + 1) (k.1 + 1),
    ⟨hD.rows, hX.rows, hX.rows, fun a k l => by rw [hX.rows]⟩, ?_⟩
  · unfold hessian
    simp only [Bool.false_eq_true, if_false, hne]
    rw [if_neg (by rw [hJi.cols, hX.rows]; omega), if_neg (by rw [hJi.cols, hJi.rows, hX.rows]; simp)]
  · intro a F hF hP p q
    have hFd : DifferentiableAt ℝ F (x u) := hF.differentiableAt (by simp)
    have key : ∀ p q : Fin d, hessEntry H d2 Ji D d (a.1 + 1) (p.1 + 1) (q.1 + 1) = pd (pd F q) p (x u) := by
      intro p q
      rw [hessEntry_sum, ← pulled_hessian hx hF hP hB p q]
      refine Finset.sum_congr rfl fun k _ => Finset.sum_congr rfl fun l _ => ?_
      rw [hN2.2.2.2 a k l]
      have b1 := rep_val hJi k.1 p.1 k.2 p.2
      have b2 := rep_val hJi l.1 q.1 l.2 q.2
      push_cast
      rw [b1, b2]
      congr 2
      refine Finset.sum_congr rfl fun i _ => ?_
      have b3 := rep_val hD a.1 i.1 a.2 i.2
      rw [b3, hH.2.2.2 i k l, ← hDv a F hFd hP i]
    dsimp only
    split
    · exact key p q
    · rw [key q p]; exact pd_symm hF q p

/-- `Hessian` returns the second derivatives of the geometry mapping, and those of the basis functions with respect to the physical coordinates. -/
theorem C61_hessian {H0 D0 d2 : Arr3} {Ji X D : Mat ℝ} {X' : Matrix (Fin d) (Fin n) ℝ} {B : Matrix (Fin d) (Fin d) ℝ} {D' : Matrix (Fin n) (Fin d) ℝ} {N : Fin n → Pt d → ℝ} {u : Pt d}
    (hn : 0 < n) (hd0 : 0 < d) (hX : Rep X X') (hN : ∀ a, ContDiffAt ℝ 2 (N a) u) (hN2 : Holds3 d2 fun a k l => pd (pd (N a) l) k u) (hJi : Rep Ji B) (hB : jac (geo X' N) u * B = 1)
    (hD : Rep D D') (hDv : ∀ a F, DifferentiableAt ℝ F (geo X' N u) → Pulls (geo X' N) u (N a) F → ∀ j, D' a j = pd F j (geo X' N u)) :
    ∃ H R, hessian H0 D0 Ji X d2 D true = (true, H, R) ∧ (Holds3 H fun i k l => pd (pd (fun v => geo X' N v i) l) k u) ∧
      ∃ r : Fin n → Fin d → Fin d → ℝ, Holds3 R r ∧
        ∀ a F, ContDiffAt ℝ 2 F (geo X' N u) → Pulls (geo X' N) u (N a) F → ∀ p q, r a p q = pd (pd F q) p (geo X' N u) := by
  obtain ⟨H, h1, h2⟩ := mul3_holds hX hN2
  have hH : Holds3 H fun i k l => pd (pd (fun v => geo X' N v i) l) k u := by
    refine ⟨h2.1, h2.2.1, h2.2.2.1, fun i k l => ?_⟩
    exact (h2.2.2.2 i k l).trans (pd2_geo hN X' i k l).symm
  obtain ⟨R, ⟨r0, r1⟩, r2, r3⟩ := hessian_known (D0 := D0) hn hd0 hX (geo_contDiff hN X') hN2 hJi hB hD hDv hH
  refine ⟨H, R, ?_, hH, r3⟩
  unfold hessian
  rw [if_pos rfl, h1]
  simp only [r0, Bool.false_eq_true, if_false]
  rw [if_neg (by rw [hJi.cols, hX.rows]; omega), if_neg (by rw [hJi.cols, hJi.rows, hX.rows]; simp), r2]

end IFEM.Props
