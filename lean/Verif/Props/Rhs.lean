import Verif.Lemmas.RhsOnly
import Verif.Props.Assembly
/-!
# C40–C43: right-hand-side assembly, nodal loads, solution vectors and prescribed values
-/
namespace IFEM.Props
open IFEM.Spec IFEM.Sam
variable {R : Type} [CommRing R]
attribute [-simp] Fin.getElem_fin

/-- **C40**. Re-assembling only the right-hand side gives exactly the right-hand side
of the full assembly, for all element data and constraints. -/
theorem C40_rhs_only {s0 s : Sam R} {D : FEModel R} (hp : Packs s0 D) (hv : D.Valid)
    (h : s0.initSystemEquations = some (s, true)) (es : List (Elem R)) (hes : ∀ e ∈ es, ElemFits D e)
    (K : Mat R) (hK : K.WF) (hrow : K.nrow = s.neq) (hcol : K.ncol = s.neq)
    (B : List R) (hB : B.length = s.neq) :
    ∃ K' B', s.assembleAll (K, B) es = some (K', B') ∧ s.assembleAllRhs B es = some B' := by
  have hr := ready_of_init hp hv h
  obtain ⟨K', B', h1, -, -, -, h5, -, h7⟩ := assembleAll_spec hr hv es hes K hK hrow hcol B hB
  obtain ⟨B2, g1, g2, g3⟩ := assembleAllRhs_spec hr hv es hes B hB
  refine ⟨K', B', h1, ?_⟩
  rw [g1]
  congr 1
  exact list_ext_vval (by omega) (fun r => by rw [g3, h7])

/-- **C41** (nodal load vector). Adding a nodal load does the work of its components on
the global shape functions at the DOFs of the node. -/
theorem C41_nodal_load {s0 s : Sam R} {D : FEModel R} (hp : Packs s0 D) (hv : D.Valid)
    (h : s0.initSystemEquations = some (s, true)) {n : Nat} (h1 : 1 ≤ n) (h2 : n ≤ D.nndof.length)
    (nS : List R) (hS : nS.length = (D.nodeDofs n).length) (B : List R) (hB : B.length = s.neq) :
    ∃ B', s.assembleNode B nS n = some B' ∧ B'.length = s.neq ∧
      ∀ r N, BasisField s D r N → vval B' r = vval B r + ((nS.zip (D.nodeDofs n)).map fun p => N p.2 * p.1).sum := by
  have hr := ready_of_init hp hv h
  have hrange : ∀ d ∈ D.nodeDofs n, 1 ≤ d ∧ d ≤ D.status.length := by
    intro d hd
    unfold FEModel.nodeDofs at hd
    rw [List.mem_range'_1] at hd
    have e1 : 1 ≤ D.firstDof n := by unfold FEModel.firstDof; omega
    have e2 := firstDof_le D (n + 1)
    rw [firstDof_succ D h1 h2] at e2
    rw [hv.ndof]; omega
  obtain ⟨B', a1, a2, a3⟩ := scatter_basis hr hv (D.nodeDofs n) nS hrange B hB
  refine ⟨B', ?_, a2, a3⟩
  unfold assembleNode getNodeEqns
  have hnn := hr.nnod
  have hcond : ¬ ((n:Int) < 1 ∨ (n:Int) > s.nnod) := by omega
  rw [if_neg hcond, nodeEqns_ready hr hv h1 h2]
  simp only [Option.bind_eq_bind, Option.bind_some, List.length_map]
  rw [if_neg (by omega)]
  exact a1

/-- **C41** (load at one DOF). A load `S` at local DOF `l` of node `n` does the work `N(d)·S`, where `d` is
the `l`-th DOF of the node; a non-existing node or local DOF is rejected. -/
theorem C41_dof_load {s0 s : Sam R} {D : FEModel R} (hp : Packs s0 D) (hv : D.Valid)
    (h : s0.initSystemEquations = some (s, true)) {n l d : Nat} (h1 : 1 ≤ n) (h2 : n ≤ D.nndof.length)
    (hl : 1 ≤ l) (hd : (D.nodeDofs n)[l-1]? = some d) (S : R) (B : List R) (hB : B.length = s.neq) :
    ∃ B', s.assembleDofLoad B S n l = some B' ∧ B'.length = s.neq ∧
      ∀ r N, BasisField s D r N → vval B' r = vval B r + N d * S := by
  have hr := ready_of_init hp hv h
  have hnn := hr.nnod
  have a1 := hr.madof n h1 (by omega)
  have a2 := hr.madof (n+1) (by omega) (by omega)
  push_cast at a2
  obtain ⟨hlt, hval⟩ := List.getElem?_eq_some_iff.1 hd
  have hlen : (D.nodeDofs n).length = D.nndof.getD (n-1) 0 := by unfold FEModel.nodeDofs; simp
  have hd' : d = D.firstDof n + (l-1) := by
    unfold FEModel.nodeDofs at hd
    rw [List.getElem?_range' (by omega)] at hd
    have := Option.some.inj hd
    omega
  have e1 : 1 ≤ D.firstDof n := by unfold FEModel.firstDof; omega
  have e2 := firstDof_le D (n + 1)
  rw [firstDof_succ D h1 h2] at e2
  have hrng : 1 ≤ d ∧ d ≤ D.status.length := by rw [hv.ndof]; omega
  obtain ⟨B', b1, b2, b3⟩ := assembleRHS_spec hr hv (o := some d) (by rintro d' ⟨⟩; exact hrng) B hB S
  refine ⟨B', ?_, b2, ?_⟩
  · unfold assembleDofLoad
    have hcond : ¬ ((n:Int) < 1 ∨ (n:Int) > s.nnod) := by omega
    rw [if_neg hcond, at0?_succ, sub_add_cancel, a1, at0?_succ, a2, firstDof_succ D h1 h2]
    simp only [Option.bind_eq_bind, Option.bind_some]
    rw [if_neg (by omega)]
    have : ((D.firstDof n : Int) + l - 1 - 1) + 1 = (d : Int) := by omega
    rw [at0?_succ, this, at1?_eqv hr hrng.1 hrng.2]
    exact b1
  · intro r N hN
    rw [b3]
    have hb := basis_val hr hv hN (o := some d) (by rintro d' ⟨⟩; exact hrng)
    simp only [atDof] at hb
    rw [hb]

/-- **C41** (rejection). A load at a non-existing node, or at a local DOF the node does not have, is rejected. -/
theorem C41_dof_load_rejected {s0 s : Sam R} {D : FEModel R} (hp : Packs s0 D) (hv : D.Valid)
    (h : s0.initSystemEquations = some (s, true)) (n l : Int) (S : R) (B : List R)
    (hbad : n < 1 ∨ n > D.nndof.length ∨ l < 1 ∨ l > (D.nodeDofs n.toNat).length) :
    s.assembleDofLoad B S n l = none := by
  have hr := ready_of_init hp hv h
  have hnn := hr.nnod
  unfold assembleDofLoad
  by_cases hc : n < 1 ∨ n > (s.nnod : Int)
  · rw [if_pos hc]
  · rw [if_neg hc]
    have h1 : 1 ≤ n.toNat := by omega
    have h2 : n.toNat ≤ D.nndof.length := by omega
    have a1 := hr.madof n.toNat h1 (by omega)
    have a2 := hr.madof (n.toNat+1) (by omega) (by omega)
    have e : ((n.toNat : Nat) : Int) = n := by omega
    push_cast at a2
    rw [e] at a1
    have hlen : (D.nodeDofs n.toNat).length = D.nndof.getD (n.toNat-1) 0 := by unfold FEModel.nodeDofs; simp
    rw [e] at a2
    rw [at0?_succ, sub_add_cancel, a1, at0?_succ, a2, firstDof_succ D h1 h2]
    simp only [Option.bind_eq_bind, Option.bind_some]
    rw [if_pos (by omega)]

/-- **C41** (DOF load vector). Adding a full DOF vector `S` to the right-hand side does the work
`Σ_d N(d)·S(d)`. -/
theorem C41_global_load {s0 s : Sam R} {D : FEModel R} (hp : Packs s0 D) (hv : D.Valid)
    (h : s0.initSystemEquations = some (s, true)) (S : List R) (hS : S.length = D.status.length)
    (B : List R) (hB : B.length = s.neq) :
    ∃ B', s.addToRHS B S = some B' ∧ B'.length = s.neq ∧
      ∀ r N, BasisField s D r N → vval B' r = vval B r +
        ((S.zip (List.range' 1 D.status.length)).map fun p => N p.2 * p.1).sum := by
  have hr := ready_of_init hp hv h
  obtain ⟨B', a1, a2, a3⟩ := scatter_basis hr hv (List.range' 1 D.status.length) S
    (by intro d hd; rw [List.mem_range'_1] at hd; omega) B hB
  unfold addToRHS
  by_cases hc : s.ndof < 1 ∨ S = []
  · rw [if_pos hc]
    refine ⟨B, rfl, hB, ?_⟩
    intro r N hN
    have hS0 : S = [] := by
      rcases hc with hc | hc
      · have h2 : s.ndof = s0.ndof := by
          unfold initSystemEquations at h
          split at h
          · exact absurd h (by simp)
          · simp only [Option.bind_eq_bind] at h
            rw [Option.bind_eq_some_iff] at h
            obtain ⟨q, -, hq⟩ := h
            have := congrArg (fun x => (Prod.fst x).ndof) (Option.some.inj hq)
            exact this.symm
        have := hp.ndof
        exact List.eq_nil_of_length_eq_zero (by omega)
      · exact hc
    rw [hS0]; simp
  · rw [if_neg hc, meqn_eq_map hr]
    exact ⟨B', a1, a2, a3⟩

/-! ## Solution vectors -/

theorem vval_out (x : List R) (r : Int) (h : r < 1 ∨ (x.length : Int) < r) : vval x r = 0 := by
  unfold vval at1? at0?
  by_cases hr : 0 ≤ r - 1
  · rw [if_pos hr, List.getElem?_eq_none (by omega)]; rfl
  · rw [if_neg hr]; rfl

theorem set1?_spec (x : List R) (e : Int) (v : R) (h1 : 1 ≤ e) (h2 : e ≤ x.length) :
    ∃ x', set1? x e v = some x' ∧ x'.length = x.length ∧ ∀ r, vval x' r = if r = e then v else vval x r := by
  unfold set1? set0?
  rw [if_pos (by omega)]
  refine ⟨_, rfl, by simp, ?_⟩
  intro r
  unfold vval at1? at0?
  by_cases hr : 0 ≤ r - 1
  · rw [if_pos hr, List.getElem?_set]
    by_cases he : r = e
    · subst he; rw [if_pos rfl, if_pos rfl, if_pos (by omega)]; rfl
    · rw [if_neg (by omega), if_neg he, if_pos hr]
  · rw [if_neg hr, if_neg (by omega), if_neg hr]

theorem getSolVecLoop_spec {s : Sam R} {D : FEModel R} (hr : Ready s D) (hv : D.Valid) (ds : List Nat)
    (hnd : ds.Nodup) (hd : ∀ d ∈ ds, 1 ≤ d ∧ d ≤ D.status.length) (U : Nat → R) :
    ∀ x : List R, x.length = s.neq → ∃ x', getSolVecLoop (ds.map (eqv s)) (ds.map U) x = some x' ∧ x'.length = s.neq ∧
      (∀ d ∈ ds, D.Free d → vval x' (eqv s d) = U d) ∧
      (∀ r, (∀ d ∈ ds, D.Free d → eqv s d ≠ r) → vval x' r = vval x r) := by
  induction ds with
  | nil => intro x hx; exact ⟨x, rfl, hx, by simp, fun _ _ => rfl⟩
  | cons d ds ih =>
    intro x hx
    rw [List.nodup_cons] at hnd
    have hd0 := hd d List.mem_cons_self
    have ihx := ih hnd.2 (fun d h => hd d (List.mem_cons_of_mem _ h))
    by_cases hf : D.Free d
    · have he := eqv_free hr hf
      obtain ⟨x1, a1, a2, a3⟩ := set1?_spec x (eqv s d) (U d) he.2.1 (by omega)
      obtain ⟨x2, b1, b2, b3, b4⟩ := ihx x1 (by omega)
      refine ⟨x2, ?_, b2, ?_, ?_⟩
      · simp only [List.map_cons, getSolVecLoop]
        rw [if_pos (by omega), a1]; exact b1
      · intro d' hd' hf'
        rcases List.mem_cons.1 hd' with rfl | hm
        · rw [b4, a3, if_pos rfl]
          intro d'' hm hf'' heq
          have := hr.inj d'' d' (eqv s d') hf'' hf (by rw [(eqv_free hr hf'').1, heq]) he.1
          subst this; exact hnd.1 hm
        · exact b3 d' hm hf'
      · intro r hne
        rw [b4 r (fun d' hm => hne d' (List.mem_cons_of_mem _ hm)), a3, if_neg]
        exact fun h => hne d List.mem_cons_self hf h.symm
    · obtain ⟨x2, b1, b2, b3, b4⟩ := ihx x hx
      refine ⟨x2, ?_, b2, ?_, ?_⟩
      · simp only [List.map_cons, getSolVecLoop]
        rw [if_neg]
        · exact b1
        · rcases dof_cases D hv hd0.1 hd0.2 with h | ⟨k, c, hc, rfl⟩ | ⟨h, hn⟩
          · exact absurd h hf
          · rw [eqv_slave hr hc]; omega
          · rw [eqv_fixed hr h hn]; omega
      · intro d' hd' hf'
        rcases List.mem_cons.1 hd' with rfl | hm
        · exact absurd hf' hf
        · exact b3 d' hm hf'
      · intro r hne
        exact b4 r (fun d' hm => hne d' (List.mem_cons_of_mem _ hm))

omit [CommRing R] in
theorem list_eq_map_vval [CommRing R] (u : List R) : u = (List.range' 1 u.length).map fun (d : Nat) => vval u d := by
  apply List.ext_getElem?
  intro i
  rw [List.getElem?_map]
  by_cases h : i < u.length
  · rw [List.getElem?_range' h, List.getElem?_eq_getElem h]
    simp only [Option.map_some, one_mul]
    unfold vval
    rw [at1?_nat _ _ (by omega)]
    have : 1 + i - 1 = i := by omega
    rw [this, List.getElem?_eq_getElem h]; rfl
  · rw [List.getElem?_eq_none (by omega), List.getElem?_eq_none (by simp; omega)]; rfl

/-- **C42**. Extracting the equation vector from a DOF vector succeeds, and
gives every equation the value of the free DOF owning it. -/
theorem C42_solution_vector {s0 s : Sam R} {D : FEModel R} (hp : Packs s0 D) (hv : D.Valid)
    (h : s0.initSystemEquations = some (s, true)) (u : List R) (hu : u.length = D.status.length) :
    ∃ x, s.getSolVec u = some x ∧ x.length = s.neq ∧
      ∀ d r, D.Free d → EqnOf s d r → vval x r = vval u d := by
  have hr := ready_of_init hp hv h
  obtain ⟨x, a1, a2, a3, -⟩ := getSolVecLoop_spec hr hv (List.range' 1 D.status.length)
    (List.nodup_range' (step := 1)) (by intro d hd; rw [List.mem_range'_1] at hd; omega) (fun (d : Nat) => vval u d)
    (List.replicate s.neq 0) (by simp)
  refine ⟨x, ?_, a2, ?_⟩
  · unfold getSolVec
    rw [meqn_eq_map hr]
    rw [← hu] at a1 ⊢
    rw [← list_eq_map_vval u] at a1
    exact a1
  · intro d r hd he
    have hrng := free_range hd
    have := a3 d (by rw [List.mem_range'_1]; omega) hd
    rw [EqnOf, (eqv_free hr hd).1] at he
    rw [← Option.some.inj he, this]

/-- **C42** (round trips). Expanding an equation vector and extracting it again gives the same vector; extracting
an admissible DOF vector and expanding it again gives the same DOF vector. -/
theorem C42_round_trips {s0 s : Sam R} {D : FEModel R} (hp : Packs s0 D) (hv : D.Valid)
    (h : s0.initSystemEquations = some (s, true)) (scale : R) :
    (∀ x : List R, x.length = s.neq → (s.expandVector x scale).bind s.getSolVec = some x) ∧
    (∀ u : List R, u.length = D.status.length → D.Admissible scale (fun d => vval u d) →
      (s.getSolVec u).bind (fun x => s.expandVector x scale) = some u) := by
  have hr := ready_of_init hp hv h
  constructor
  · intro x hx
    obtain ⟨u, a1, a2, a3, a4, -⟩ := C07_expand hp hv h x (by omega) scale
    obtain ⟨y, b1, b2, b3⟩ := C42_solution_vector hp hv h u a2
    rw [a1, Option.bind_some, b1]
    congr 1
    apply list_ext_vval (by omega)
    intro r
    by_cases hrr : 1 ≤ r ∧ r ≤ s.neq
    · obtain ⟨d, hd, he⟩ := hr.surj r hrr.1 hrr.2
      rw [b3 d r hd he, a4 d r hd he]
    · rw [vval_out _ _ (by omega), vval_out _ _ (by omega)]
  · intro u hu ha
    obtain ⟨x, b1, b2, b3⟩ := C42_solution_vector hp hv h u hu
    obtain ⟨w, a1, a2, a3, a4, a5⟩ := C07_expand hp hv h x (by omega) scale
    rw [b1, Option.bind_some, a1]
    congr 1
    apply list_ext_vval (by omega)
    intro r
    by_cases hrr : 1 ≤ r ∧ r ≤ D.status.length
    · have := a5 (fun d => vval u d) ha (fun d r hd he => (b3 d r hd he).symm) r.toNat (by omega) (by omega)
      have e : ((r.toNat : Nat) : Int) = r := by omega
      rw [e] at this
      exact this.symm
    · rw [vval_out _ _ (by omega), vval_out _ _ (by omega)]

/-! ## Prescribed values -/

theorem applyDirichletLoop_spec {s : Sam R} {D : FEModel R} (hr : Ready s D) (hv : D.Valid) (ds : List Nat)
    (hd : ∀ d ∈ ds, 1 ≤ d ∧ d ≤ D.status.length) (U : Nat → R) :
    s.applyDirichletLoop (ds.map (eqv s)) (ds.map U) = some (ds.map fun d =>
      if eqv s d < 0 then gOf D (eqv s d) else if eqv s d = 0 then 0 else U d) := by
  induction ds with
  | nil => rfl
  | cons d ds ih =>
    have hd0 := hd d List.mem_cons_self
    simp only [List.map_cons, applyDirichletLoop]
    rw [ih (fun d h => hd d (List.mem_cons_of_mem _ h))]
    by_cases hn : eqv s d < 0
    · have := (tm_facts hr hv (o := some d) (by rintro d' ⟨⟩; exact hd0) hn).2.1
      simp only [eqvO] at this
      rw [if_pos (by omega), this, if_pos hn]; rfl
    · rw [if_neg (by omega), if_neg hn]
      by_cases h0 : eqv s d = 0
      · rw [if_pos h0, if_pos h0]; rfl
      · rw [if_neg h0, if_neg h0]; rfl

/-- **C43**. Applying the prescribed values to a DOF vector leaves the free DOFs alone, gives every slave DOF the constant
term of its constraint, and zeroes all other suppressed DOFs. -/
theorem C43_apply_dirichlet {s0 s : Sam R} {D : FEModel R} (hp : Packs s0 D) (hv : D.Valid)
    (h : s0.initSystemEquations = some (s, true)) (u : List R) (hu : u.length = D.status.length) :
    ∃ u', s.applyDirichlet u = some u' ∧ u'.length = u.length ∧
      (∀ d, D.Free d → vval u' d = vval u d) ∧
      (∀ c ∈ D.cons, vval u' c.slave = c.offset) ∧
      (∀ d, D.Suppressed d → (∀ c ∈ D.cons, c.slave ≠ d) → vval u' d = 0) := by
  have hr := ready_of_init hp hv h
  have key := applyDirichletLoop_spec hr hv (List.range' 1 D.status.length)
    (by intro d hd; rw [List.mem_range'_1] at hd; omega) (fun (d : Nat) => vval u d)
  have hval : ∀ d : Nat, 1 ≤ d → d ≤ D.status.length → vval ((List.range' 1 D.status.length).map fun (d : Nat) =>
      if eqv s d < 0 then gOf D (eqv s d) else if eqv s d = 0 then 0 else vval u d) d =
      if eqv s d < 0 then gOf D (eqv s d) else if eqv s d = 0 then 0 else vval u d := by
    intro d h1 h2
    conv_lhs => unfold vval
    rw [at1?_nat _ _ h1, List.getElem?_map, List.getElem?_range' (by omega)]
    simp only [Option.map_some, one_mul, Option.getD_some]
    have : 1 + (d - 1) = d := by omega
    rw [this]
    rfl
  have hsup : ∀ d, D.Suppressed d → 1 ≤ d ∧ d ≤ D.status.length := by
    rintro d ⟨h1, h2⟩
    refine ⟨h1, ?_⟩
    have := (List.getElem?_eq_some_iff.1 h2).1; omega
  refine ⟨(List.range' 1 D.status.length).map fun (d : Nat) =>
      if eqv s d < 0 then gOf D (eqv s d) else if eqv s d = 0 then 0 else vval u d, ?_, ?_, ?_, ?_, ?_⟩
  · unfold applyDirichlet
    rw [meqn_eq_map hr, ← key]
    congr 1
    rw [← hu]
    exact list_eq_map_vval u
  · simp [hu]
  · intro d hd
    have hrng := free_range hd
    have := (eqv_free hr hd).2.1
    rw [hval d hrng.1 hrng.2, if_neg (by omega), if_neg (by omega)]
  · intro c hc
    have hrng := hsup _ (hv.slave c hc)
    obtain ⟨k, hk⟩ := List.mem_iff_getElem?.1 hc
    rw [hval _ hrng.1 hrng.2, eqv_slave hr hk, if_pos (by omega)]
    unfold gOf
    rw [code_index, hk]
  · intro d hd hn
    have hrng := hsup _ hd
    rw [hval _ hrng.1 hrng.2, eqv_fixed hr hd hn]
    simp

/-! ### Concrete instances on the example model of `Props/Assembly.lean` -/

/-- Loads, extraction and prescribed values on the example tables (DOF 4 is the slave `u4 = 7 + 2 u1 + 3 u3`;
equations: DOF 3 → 1, DOF 5 → 2, DOF 1 → 3). -/
example : ∃ s, exampleTables.initSystemEquations = some (s, true) ∧ s.meqn = [3, 0, 1, -1, 2] ∧
    s.assembleNode [0, 0, 0] [10, 1] 3 = some [30, 1, 20] ∧
    s.assembleDofLoad [0, 0, 0] 5 3 1 = some [15, 0, 10] ∧
    s.addToRHS [0, 0, 0] [1, 2, 3, 4, 5] = some [15, 5, 9] ∧
    s.expandVector [1, 2, 3] 1 = some [3, 0, 1, 16, 2] ∧
    s.getSolVec [3, 0, 1, 16, 2] = some [1, 2, 3] ∧
    s.applyDirichlet [1, 2, 3, 4, 5] = some [1, 0, 3, 7, 5] := by
  refine ⟨_, rfl, ?_⟩
  decide

end IFEM.Props
