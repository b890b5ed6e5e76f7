import Verif.Lemmas.SamNorms
import Verif.Lemmas.FE
import Verif.Props.Reactions
/-!
# C53: equation sets by DOF type
-/
namespace IFEM.Props
open IFEM.Spec
open Sam
variable {R : Type} [CommRing R]

theorem mapM_mem {α β : Type} (l : List α) (g : α → Option (List β)) (P : α → β → Prop) (h : ∀ a ∈ l, ∃ r, g a = some r ∧ ∀ b, b ∈ r ↔ P a b) :
    ∃ r, (l.mapM g).map List.flatten = some r ∧ ∀ b, b ∈ r ↔ ∃ a ∈ l, P a b := by
  induction l with
  | nil => exact ⟨[], rfl, by simp⟩
  | cons a l ih =>
    obtain ⟨r1, h1, h2⟩ := h a List.mem_cons_self
    obtain ⟨r2, h3, h4⟩ := ih (fun b hb => h b (List.mem_cons_of_mem _ hb))
    obtain ⟨q, hq, rfl⟩ := Option.map_eq_some_iff.1 h3
    refine ⟨r1 ++ q.flatten, ?_, ?_⟩
    · rw [List.mapM_cons, h1, hq]; rfl
    · intro b
      rw [List.mem_append, h2, h4]
      simp

theorem typedEquation_spec {s : Sam R} {D : FEModel R} (hr : Ready s D) (hv : D.Valid) {ty : DofTypes} (hty : TypesFit D ty) (t : Char) {d : Nat} (h1 : 1 ≤ d) (h2 : d ≤ D.status.length) :
    ∃ r, s.typedEquation ty t ((d : Int) - 1) = some r ∧ ∀ e, e ∈ r ↔ (ty.dofType ≠ [] → ty.dofType[d-1]? = some t) ∧ D.Free d ∧ EqnOf s d e := by
  unfold typedEquation
  have he : ((d : Int) - 1) = ((d - 1 : Nat) : Int) := by omega
  rw [he, typeIs_some _ _ _ (hty.dof.imp id (fun h => by omega))]
  by_cases hd : (ty.dofType ≠ [] → ty.dofType[d-1]? = some t)
  swap
  · rw [decide_eq_false hd]
    refine ⟨[], rfl, fun e => ?_⟩
    simp [hd]
  rw [decide_eq_true hd]
  have hm : at0? s.meqn ((d - 1 : Nat) : Int) = at1? s.meqn (d : Int) := by unfold at1?; rw [he]
  simp only [Option.bind_eq_bind, Option.bind_some, if_true]
  rw [hm]
  rcases dof_free_or_suppressed hv h1 h2 with hfree | hsupp
  · obtain ⟨e, e1, e2, e3⟩ := hr.free d hfree
    rw [e1]
    refine ⟨[e], by simp; omega, fun e' => ?_⟩
    unfold EqnOf
    rw [e1]
    simp only [List.mem_singleton, Option.some_inj]
    constructor
    · intro h; exact ⟨hd, hfree, h.symm⟩
    · rintro ⟨-, -, h⟩; exact h.symm
  · have hnf : ¬ D.Free d := by
      rintro ⟨-, h | h⟩ <;> rw [hsupp.2] at h <;> simp at h
    have hle : ∃ e, at1? s.meqn (d : Int) = some e ∧ e ≤ 0 := by
      by_cases hcon : ∃ c ∈ D.cons, c.slave = d
      · obtain ⟨c, hc, hcs⟩ := hcon
        obtain ⟨k, hk⟩ := List.mem_iff_getElem?.1 hc
        have := hr.slave k c hk
        rw [hcs] at this
        exact ⟨_, this, by omega⟩
      · exact ⟨0, hr.fixed d hsupp (fun c hc h => hcon ⟨c, hc, h⟩), le_refl _⟩
    obtain ⟨e, e1, e2⟩ := hle
    rw [e1]
    refine ⟨[], by simp; omega, fun e' => ?_⟩
    simp [hnf]

/-- What `getEquations` returns: the equations of the free DOFs of the type; restricted to local DOF `dof` in those nodes that have such a DOF. -/
theorem getEquations_spec {s : Sam R} {D : FEModel R} (hr : Ready s D) (hv : D.Valid) {ty : DofTypes} (hty : TypesFit D ty) (t : Char) (dof : Int) :
    ∃ r, s.getEquations ty t dof = some r ∧ ∀ e, e ∈ r ↔ ∃ n d, 1 ≤ n ∧ n ≤ D.nndof.length ∧ d ∈ D.nodeDofs n ∧ EqnType ty t n d ∧ D.Free d ∧ EqnOf s d e ∧
      (1 ≤ dof ∧ dof ≤ D.nndof.getD (n-1) 0 → (d : Int) = D.firstDof n + dof - 1) := by
  have hm : MadofOK s D := ⟨hr.nnod, hr.madof⟩
  unfold getEquations
  rw [hr.nnod]
  have key : ∀ i ∈ List.range D.nndof.length, ∃ r, s.nodeEquations ty t dof i = some r ∧ ∀ e, e ∈ r ↔
      ∃ d, d ∈ D.nodeDofs (i+1) ∧ EqnType ty t (i+1) d ∧ D.Free d ∧ EqnOf s d e ∧
      (1 ≤ dof ∧ dof ≤ D.nndof.getD (i+1-1) 0 → (d : Int) = D.firstDof (i+1) + dof - 1) := by
    intro i hi
    have hi := List.mem_range.1 hi
    have e2 := madof_at0 hm (i+1) (by omega)
    push_cast at e2
    have hlast := firstDof_mono D (show i+1+1 ≤ D.nndof.length + 1 by omega)
    rw [firstDof_last] at hlast
    have hpos := firstDof_pos D (i+1)
    have hsucc := firstDof_succ D (n := i+1) (by omega) (by omega)
    have hnd := hv.ndof
    have hmem : ∀ d, d ∈ D.nodeDofs (i+1) ↔ D.firstDof (i+1) ≤ d ∧ d < D.firstDof (i+1+1) := fun d => mem_nodeDofs (by omega) (by omega)
    -- the type of the node
    have hnt : ∃ c, nodeTypeD ty i = some c ∧ ∀ d, (EqnType ty t (i+1) d ↔ (c = t ∨ ty.dofType ≠ []) ∧ (ty.dofType ≠ [] → ty.dofType[d-1]? = some t)) := by
      unfold nodeTypeD
      by_cases hn : ty.nodeType = []
      · refine ⟨'D', if_pos hn, fun d => ?_⟩
        unfold EqnType
        by_cases hdt : ty.dofType = []
        · simp [hn, hdt, eq_comm]
        · simp [hn, hdt]
      · have hlen : i < ty.nodeType.length := by have := hty.node.resolve_left hn; omega
        refine ⟨ty.nodeType[i], by rw [if_neg hn, at0?_natCast, List.getElem?_eq_getElem hlen], fun d => ?_⟩
        unfold EqnType
        by_cases hdt : ty.dofType = []
        · simp [hn, hdt, List.getElem?_eq_getElem hlen]
        · simp [hdt]
    obtain ⟨c, hc, hct⟩ := hnt
    unfold nodeEquations
    rw [hc]
    simp only [Option.bind_eq_bind, Option.bind_some]
    by_cases hsel : c = t ∨ ty.dofType ≠ []
    swap
    · rw [if_neg hsel]
      refine ⟨[], rfl, fun e => ?_⟩
      simp only [List.not_mem_nil, false_iff]
      rintro ⟨d, -, h, -⟩
      exact hsel ((hct d).1 h).1
    rw [if_pos hsel, madof_at0 hm i (by omega), e2]
    simp only [Option.bind_some]
    by_cases hdof : dof > 0 ∧ dof ≤ (D.firstDof (i+1+1) : Int) - D.firstDof (i+1)
    · rw [if_pos hdof]
      obtain ⟨d, hd⟩ : ∃ d : Nat, (d : Int) = D.firstDof (i+1) + dof - 1 := ⟨(D.firstDof (i+1) + dof - 1).toNat, by omega⟩
      rw [show ((D.firstDof (i+1) : Int) + dof - 2) = (d : Int) - 1 by omega]
      obtain ⟨r, r1, r2⟩ := typedEquation_spec hr hv hty t (d := d) (by omega) (by omega)
      refine ⟨r, r1, fun e => (r2 e).trans ?_⟩
      constructor
      · rintro ⟨p1, p2, p3⟩
        exact ⟨d, by rw [hmem]; omega, (hct d).2 ⟨hsel, p1⟩, p2, p3, fun _ => hd⟩
      · rintro ⟨d', q1, q2, q3, q4, q5⟩
        have := q5 (by omega)
        have : d' = d := by omega
        subst this
        exact ⟨((hct _).1 q2).2, q3, q4⟩
    · rw [if_neg hdof]
      have hir : intRange (D.firstDof (i+1) : Int) (D.firstDof (i+1+1) : Int) = (D.nodeDofs (i+1)).map (fun d : Nat => (d : Int)) := by
        unfold intRange FEModel.nodeDofs
        rw [List.range'_eq_map_range, List.map_map]
        have : ((D.firstDof (i+1+1) : Int) - D.firstDof (i+1)).toNat = D.nndof.getD (i+1-1) 0 := by omega
        rw [this]
        apply List.map_congr_left
        intro k _
        simp
      rw [hir]
      obtain ⟨r, r1, r2⟩ := mapM_mem ((D.nodeDofs (i+1)).map (fun d : Nat => (d : Int))) (fun idof => s.typedEquation ty t (idof - 1))
        (fun j e => ∃ d : Nat, j = d ∧ (ty.dofType ≠ [] → ty.dofType[d-1]? = some t) ∧ D.Free d ∧ EqnOf s d e) (by
          intro j hj
          obtain ⟨d, hd, rfl⟩ := List.mem_map.1 hj
          rw [hmem] at hd
          obtain ⟨r, r1, r2⟩ := typedEquation_spec hr hv hty t (d := d) (by omega) (by omega)
          refine ⟨r, r1, fun e => (r2 e).trans ?_⟩
          constructor
          · intro h; exact ⟨d, rfl, h⟩
          · rintro ⟨d', hd', h⟩
            have : d' = d := by omega
            subst this
            exact h)
      refine ⟨r, r1, fun e => (r2 e).trans ?_⟩
      constructor
      · rintro ⟨j, hj, d, rfl, p1, p2, p3⟩
        obtain ⟨d', hd', hdd⟩ := List.mem_map.1 hj
        have : d' = d := by omega
        subst this
        exact ⟨d', hd', (hct _).2 ⟨hsel, p1⟩, p2, p3, fun h => absurd h (by omega)⟩
      · rintro ⟨d, q1, q2, q3, q4, -⟩
        exact ⟨d, List.mem_map.2 ⟨d, q1, rfl⟩, d, rfl, ((hct _).1 q2).2, q3, q4⟩
  obtain ⟨r, h1, h2⟩ := mapM_mem (List.range D.nndof.length) (fun i => s.nodeEquations ty t dof i)
    (fun i e => ∃ d, d ∈ D.nodeDofs (i+1) ∧ EqnType ty t (i+1) d ∧ D.Free d ∧ EqnOf s d e ∧
      (1 ≤ dof ∧ dof ≤ D.nndof.getD (i+1-1) 0 → (d : Int) = D.firstDof (i+1) + dof - 1)) key
  refine ⟨r, h1, fun e => (h2 e).trans ?_⟩
  · constructor
    · rintro ⟨i, hi, d, h⟩
      exact ⟨i+1, d, by omega, by have := List.mem_range.1 hi; omega, h⟩
    · rintro ⟨n, d, a, b, h⟩
      refine ⟨n-1, List.mem_range.2 (by omega), d, ?_⟩
      rw [show n - 1 + 1 = n by omega]
      exact h

/-- **C53**. The set of equations of a DOF type contains the equations of the free DOFs of this type, and no others. -/
theorem C53_equations {s0 s : Sam R} {D : FEModel R} (hp : Packs s0 D) (hv : D.Valid) (h : s0.initSystemEquations = some (s, true)) {ty : DofTypes} (hty : TypesFit D ty) (t : Char) :
    ∃ r, s.getEquations ty t 0 = some r ∧
      ∀ e, e ∈ r ↔ ∃ n d, 1 ≤ n ∧ n ≤ D.nndof.length ∧ d ∈ D.nodeDofs n ∧ EqnType ty t n d ∧ D.Free d ∧ EqnOf s d e := by
  obtain ⟨r, h1, h2⟩ := getEquations_spec (ready_of_init hp hv h) hv hty t 0
  refine ⟨r, h1, fun e => (h2 e).trans ?_⟩
  constructor
  · rintro ⟨n, d, a, b, c, e, f, g, -⟩; exact ⟨n, d, a, b, c, e, f, g⟩
  · rintro ⟨n, d, a, b, c, e, f, g⟩; exact ⟨n, d, a, b, c, e, f, g, fun h => by omega⟩

/-- **C53**. Restricted to local DOF `dof`, the set contains the equations of the free `dof`th DOFs of the nodes, if they are of the type, and no others.  Full claim: for all nodes.  Proved for models
where each node has at least `dof` DOFs; missing: models having also nodes with fewer DOFs (the code returns too many equations then, see `C53_missing_component`). -/
theorem C53_component_partial {s0 s : Sam R} {D : FEModel R} (hp : Packs s0 D) (hv : D.Valid) (h : s0.initSystemEquations = some (s, true)) {ty : DofTypes} (hty : TypesFit D ty) (t : Char)
    (dof : Nat) (hdof : 1 ≤ dof) (hall : ∀ c ∈ D.nndof, dof ≤ c) :
    ∃ r, s.getEquations ty t dof = some r ∧
      ∀ e, e ∈ r ↔ ∃ n d, 1 ≤ n ∧ n ≤ D.nndof.length ∧ (D.nodeDofs n)[dof-1]? = some d ∧ EqnType ty t n d ∧ D.Free d ∧ EqnOf s d e := by
  obtain ⟨r, h1, h2⟩ := getEquations_spec (ready_of_init hp hv h) hv hty t dof
  refine ⟨r, h1, fun e => (h2 e).trans ?_⟩
  have hget : ∀ n, 1 ≤ n → n ≤ D.nndof.length → dof ≤ D.nndof.getD (n-1) 0 ∧ (D.nodeDofs n)[dof-1]? = some (D.firstDof n + (dof - 1)) := by
    intro n a b
    have hle : dof ≤ D.nndof.getD (n-1) 0 := by
      rw [List.getD_eq_getElem?_getD, List.getElem?_eq_getElem (by omega)]
      exact hall _ (List.getElem_mem _)
    refine ⟨hle, ?_⟩
    unfold FEModel.nodeDofs
    rw [List.getElem?_range' (by omega)]
    simp
  constructor
  · rintro ⟨n, d, a, b, c, e, f, g, hd⟩
    obtain ⟨q1, q2⟩ := hget n a b
    have := hd (by omega)
    refine ⟨n, d, a, b, ?_, e, f, g⟩
    rw [q2]; congr 1; omega
  · rintro ⟨n, d, a, b, c, e, f, g⟩
    obtain ⟨q1, q2⟩ := hget n a b
    refine ⟨n, d, a, b, List.mem_of_getElem? c, e, f, g, fun _ => ?_⟩
    rw [q2] at c
    cases c
    omega

/-- Finding F14: a node with one DOF contributes the equation of that DOF when the equations of local DOF 2 are asked for (nodes with 2 and 1 DOFs, all free). -/
theorem C53_missing_component : ∃ s : Sam Int, (⟨2, 0, 3, 0, 0, 0, [1], [], [1, 3, 4], [1, 1, 1], [1], [], [], []⟩ : Sam Int).initSystemEquations = some (s, true) ∧
    s.getEquations {} 'D' 2 = some [2, 3] := ⟨_, rfl, by decide⟩

/-- The example model with nodes of types D, P, D: the equations of the free DOFs 1 and 5 for type D, and of DOF 3 for type P. -/
example : TypesFit exampleModel ⟨['D', 'P', 'D'], []⟩ ∧ ∃ s, exampleTables.initSystemEquations = some (s, true) ∧
    s.getEquations ⟨['D', 'P', 'D'], []⟩ 'D' 0 = some [3, 2] ∧ s.getEquations ⟨['D', 'P', 'D'], []⟩ 'P' 0 = some [1] :=
  ⟨⟨Or.inr rfl, Or.inl rfl⟩, _, rfl, by decide, by decide⟩

end IFEM.Props
