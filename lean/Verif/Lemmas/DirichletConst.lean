import Verif.Lemmas.Dirichlet
import Verif.Spec.Dirichlet
import Verif.Props.SamPatch

/-!
# Lemmas: models that differ in the constant terms only
-/
namespace IFEM.Dirichlet
open IFEM.Spec IFEM.Props Spec
variable {K : Type} [Field K]

/-- A constraint without constant term. -/
def z (m : Mpc K) : Mpc K := { m with c0 := 0 }

theorem nc_nodes (P : List (SPatch K)) : (noConst P).flatMap (fun p => p.nodes) = P.flatMap fun p => p.nodes := by simp [noConst, List.flatMap_map]
theorem nc_bcode (P : List (SPatch K)) : (noConst P).flatMap (fun p => p.bcode) = P.flatMap fun p => p.bcode := by simp [noConst, List.flatMap_map]
theorem nc_mpcs (P : List (SPatch K)) : allMpcs (noConst P) = (allMpcs P).map z := by
  simp only [noConst, allMpcs, List.flatMap_map, List.map_flatMap]; rfl
theorem nc_dofs (P : List (SPatch K)) (n : Nat) : nodalDofs (noConst P) n = nodalDofs P n := by unfold nodalDofs; rw [nc_nodes]
theorem nc_fixed (P : List (SPatch K)) (n : Int) (c : Nat) : FixedIn (noConst P) n c ↔ FixedIn P n c := by
  unfold FixedIn noConst
  constructor
  · rintro ⟨p, hp, h⟩
    obtain ⟨q, hq, rfl⟩ := List.mem_map.1 hp
    exact ⟨q, hq, h⟩
  · rintro ⟨p, hp, h⟩
    exact ⟨_, List.mem_map.2 ⟨p, hp, rfl⟩, h⟩
theorem nc_isDof (P : List (SPatch K)) (nnod : Nat) (k : Int × Int) : IsDof (noConst P) nnod k ↔ IsDof P nnod k := by unfold IsDof; rw [nc_dofs]
theorem nc_index (P : List (SPatch K)) (k : Int × Int) : dofIndex (noConst P) k = dofIndex P k := by unfold dofIndex; simp only [nc_dofs]
theorem nc_elms (P : List (SPatch K)) : allElms (noConst P) = allElms P := by simp [noConst, allElms, List.flatMap_map]
theorem nc_slave (P : List (SPatch K)) (k : Int × Int) : IsSlave (allMpcs (noConst P)) k ↔ IsSlave (allMpcs P) k := by
  rw [nc_mpcs]
  unfold IsSlave
  constructor
  · rintro ⟨m, hm, h⟩
    obtain ⟨q, hq, rfl⟩ := List.mem_map.1 hm
    exact ⟨q, hq, h⟩
  · rintro ⟨m, hm, h⟩
    exact ⟨_, List.mem_map.2 ⟨m, hm, rfl⟩, h⟩
theorem nc_free (P : List (SPatch K)) (nnod : Nat) (k : Int × Int) : OpenDof (noConst P) nnod k ↔ OpenDof P nnod k := by
  unfold OpenDof; rw [nc_isDof, nc_fixed, nc_slave]
theorem nc_counts (P : List (SPatch K)) (nnod : Nat) : nodeCounts (noConst P) nnod = nodeCounts P nnod := by
  unfold nodeCounts; simp only [nc_dofs]

/-- Statements about all constraints that do not concern the constant term. -/
theorem nc_all (P : List (SPatch K)) (q : Mpc K → Prop) (hq : ∀ m, q (z m) ↔ q m) : (∀ m ∈ allMpcs (noConst P), q m) ↔ ∀ m ∈ allMpcs P, q m := by
  rw [nc_mpcs]
  constructor
  · intro h m hm
    exact (hq m).1 (h _ (List.mem_map.2 ⟨m, hm, rfl⟩))
  · intro h m hm
    obtain ⟨m', hm', rfl⟩ := List.mem_map.1 hm
    exact (hq m').2 (h m' hm')

theorem nc_good (P : List (SPatch K)) (nnod : Nat) : GoodModel (noConst P) nnod ↔ GoodModel P nnod := by
  have e1 : ConsistentNodes (noConst P) nnod ↔ ConsistentNodes P nnod := by
    unfold ConsistentNodes; rw [nc_nodes]; simp only [nc_dofs]
  have e2 : (∀ p ∈ noConst P, ∀ b ∈ p.bcode, (1 ≤ b.node ∧ b.node ≤ nnod) ∧ ∀ c, bcCode b c = 0 ∨ bcCode b c = 1) ↔
      ∀ p ∈ P, ∀ b ∈ p.bcode, (1 ≤ b.node ∧ b.node ≤ nnod) ∧ ∀ c, bcCode b c = 0 ∨ bcCode b c = 1 := by
    unfold noConst
    rw [List.forall_mem_map]
  have e3 : UniqueSlaves (allMpcs (noConst P)) ↔ UniqueSlaves (allMpcs P) := by
    unfold UniqueSlaves
    rw [nc_mpcs, List.map_map]
    rfl
  have e4 : Acyclic (allMpcs (noConst P)) ↔ Acyclic (allMpcs P) := by
    unfold Acyclic
    simp only [nc_slave]
    refine exists_congr fun rank => ?_
    exact nc_all P (fun m => ∀ t ∈ m.master, IsSlave (allMpcs P) (t.node, t.dof) → rank (t.node, t.dof) < rank (m.node, m.dof)) (fun m => Iff.rfl)
  have e5 := nc_all P (fun m => IsDof P nnod (m.node, m.dof)) (fun m => Iff.rfl)
  have e6 := nc_all P (fun m => ∀ t ∈ m.master, IsDof P nnod (t.node, t.dof)) (fun m => Iff.rfl)
  have e7 := nc_all P (fun m => ∀ t ∈ m.master, t.nextc = true ↔ IsSlave (allMpcs P) (t.node, t.dof)) (fun m => Iff.rfl)
  have e8 := nc_all P (fun m => ∀ t ∈ m.master, t.nextc = true → ¬ FixedIn P t.node t.dof.toNat) (fun m => Iff.rfl)
  constructor
  · intro h
    refine ⟨e1.1 h.nodes, e2.1 h.bcs, e5.1 ?_, e6.1 ?_, e3.1 h.unique, e7.1 ?_, e4.1 h.acyclic, e8.1 ?_, by rw [← nc_elms]; exact h.elms, by rw [← nc_elms]; exact h.elmn⟩
    · simpa only [nc_isDof] using h.slaves
    · simpa only [nc_isDof] using h.masters
    · simpa only [nc_slave] using h.linked
    · simpa only [nc_fixed] using h.free
  · intro h
    refine ⟨e1.2 h.nodes, e2.2 h.bcs, ?_, ?_, e3.2 h.unique, ?_, e4.2 h.acyclic, ?_, by rw [nc_elms]; exact h.elms, by rw [nc_elms]; exact h.elmn⟩
    · simpa only [nc_isDof] using e5.2 h.slaves
    · simpa only [nc_isDof] using e6.2 h.masters
    · simpa only [nc_slave] using e7.2 h.linked
    · simpa only [nc_fixed] using e8.2 h.free

variable [LinearOrder K]

theorem nc_init (P : List (SPatch K)) (nnod : Nat) : initNodeDofs nnod (noConst P) = initNodeDofs nnod P := by
  unfold initNodeDofs; rw [nc_nodes, nc_bcode]

theorem find_z (k : Int × Int) (H : List (Mpc K)) : findSlave k (H.map z) = (findSlave k H).map z := by
  unfold findSlave
  rw [List.find?_map]
  rfl

/-- The terms found by `resolve` do not depend on the constant terms. -/
theorem resolve_z (madof msc : List Int) (H : List (Mpc K)) (f : Nat) : ∀ (t : MTerm K) (scale o o' : K) (B : List (Int × K)),
    (resolveTerm madof msc (H.map z) f t scale (o', B)).map Prod.snd = (resolveTerm madof msc H f t scale (o, B)).map Prod.snd := by
  induction f with
  | zero => intros; rfl
  | succ f ih =>
    intro t scale o o' B
    simp only [resolveTerm]
    cases dofNo madof t.key with
    | none => rfl
    | some idof =>
      dsimp only
      by_cases hn : t.nextc = true
      · rw [if_pos hn, if_pos hn, find_z]
        cases findSlave t.key H with
        | none => rfl
        | some c =>
          simp only [Option.map_some]
          show Option.map Prod.snd (c.master.foldlM _ _) = _
          generalize (z c).c0 = c1
          generalize o' + c1 * (scale * t.coeff) = p'
          generalize o + c.c0 * (scale * t.coeff) = p
          induction c.master generalizing p p' B with
          | nil => rfl
          | cons t' l ihl =>
            rw [List.foldlM_cons, List.foldlM_cons]
            have h := ih t' (scale * t.coeff) p p' B
            cases h1 : resolveTerm madof msc (H.map z) f t' (scale * t.coeff) (p', B) with
            | none =>
              rw [h1] at h
              cases h2 : resolveTerm madof msc H f t' (scale * t.coeff) (p, B) with
              | none => rfl
              | some r => rw [h2] at h; simp at h
            | some r' =>
              rw [h1] at h
              cases h2 : resolveTerm madof msc H f t' (scale * t.coeff) (p, B) with
              | none => rw [h2] at h; simp at h
              | some r =>
                rw [h2] at h
                simp only [Option.map_some, Option.some.injEq] at h
                obtain ⟨r1, r2⟩ := r
                obtain ⟨r1', r2'⟩ := r'
                dsimp only at h
                subst h
                simp only [Option.bind_eq_bind, Option.bind_some]
                exact ihl _ _ _
      · rw [if_neg hn, if_neg hn]
        cases at1? msc idof with
        | none => rfl
        | some s =>
          dsimp only
          by_cases hs : s > 0
          · rw [if_pos hs, if_pos hs]; rfl
          · rw [if_neg hs, if_neg hs]; rfl

theorem resolved_z (cs : List Nat) (msc : List Int) (H : List (Mpc K)) (f : Nat) (m : Mpc K) : (resolvedOf cs msc (H.map z) f (z m)).2 = (resolvedOf cs msc H f m).2 := by
  unfold resolvedOf
  have : ∀ (l : List (MTerm K)) (o o' : K) (B : List (Int × K)),
      (l.foldlM (fun acc t => resolveTerm (accumulate 1 cs) msc (H.map z) f t 1 acc) (o', B)).map Prod.snd = (l.foldlM (fun acc t => resolveTerm (accumulate 1 cs) msc H f t 1 acc) (o, B)).map Prod.snd := by
    intro l
    induction l with
    | nil => intros; rfl
    | cons t' l ihl =>
      intro p p' B
      rw [List.foldlM_cons, List.foldlM_cons]
      have h := resolve_z (accumulate 1 cs) msc H f t' 1 p p' B
      cases h1 : resolveTerm (accumulate 1 cs) msc (H.map z) f t' 1 (p', B) with
      | none =>
        rw [h1] at h
        cases h2 : resolveTerm (accumulate 1 cs) msc H f t' 1 (p, B) with
        | none => rfl
        | some r => rw [h2] at h; simp at h
      | some r' =>
        rw [h1] at h
        cases h2 : resolveTerm (accumulate 1 cs) msc H f t' 1 (p, B) with
        | none => rw [h2] at h; simp at h
        | some r =>
          rw [h2] at h
          simp only [Option.map_some, Option.some.injEq] at h
          obtain ⟨r1, r2⟩ := r
          obtain ⟨r1', r2'⟩ := r'
          dsimp only at h
          subst h
          simp only [Option.bind_eq_bind, Option.bind_some]
          exact ihl _ _ _
  have h := this m.master m.c0 (z m).c0 []
  show Prod.snd (Option.getD (m.master.foldlM _ ((z m).c0, [])) (0, [])) = _
  generalize m.master.foldlM (fun acc t => resolveTerm (accumulate 1 cs) msc (H.map z) f t 1 acc) ((z m).c0, []) = x at *
  generalize m.master.foldlM (fun acc t => resolveTerm (accumulate 1 cs) msc H f t 1 acc) (m.c0, []) = y at *
  cases x <;> cases y <;> simp_all

/-- Models that differ in the constant terms only have constraint tables of the same shape. -/
theorem cons_shape (cs : List Nat) (msc : List Int) (P : List (SPatch K)) (f : Nat) :
    (consOf cs msc (allMpcs (noConst P)) f).map shape = (consOf cs msc (allMpcs P) f).map shape := by
  rw [nc_mpcs]
  unfold consOf
  rw [List.filter_map, List.map_map, List.map_map, List.map_map]
  have : ((fun m : Mpc K => decide (at1? msc (dofIx cs m.key) = some 1)) ∘ z) = fun m => decide (at1? msc (dofIx cs m.key) = some 1) := rfl
  rw [this]
  apply List.map_congr_left
  intro m _
  simp only [Function.comp, shape, conOf, resolved_z]
  rfl

theorem idxs_z (cs : List Nat) (msc : List Int) (n : Nat) (L : List (Mpc K)) : idxs cs msc n (L.map z) = idxs cs msc n L := by
  induction L generalizing n with
  | nil => rfl
  | cons m L ih =>
    simp only [List.map_cons, idxs, ih]
    rfl

end IFEM.Dirichlet
