import Verif.Props.AlgSysMore
import Verif.Props.PrescribedReactions
import Verif.Props.Reactions
/-!
# C89: Reaction forces in an equation system with one matrix
-/
namespace IFEM.AlgSys
open IFEM.Spec IFEM.Sam IFEM.Props

variable {R : Type} [CommRing R] {s0 s : Sam R} {D : FEModel R}

theorem reactionAt_iff (hs : Slots s D) (rf : List R) (d : Nat) (v : R) (hl : rf.length = s.nspdof) (hd : D.Suppressed d) :
    ReactionAt s rf d v ↔ vval rf (slot s d) = v := by
  have h1 := hs.supp d hd
  obtain ⟨m, hm⟩ : ∃ m, at1? s.msc (d:Int) = some m := by
    have hst := (List.getElem?_eq_some_iff.1 hd.2).1
    have := hs.len
    rw [at1?_nat _ _ hd.1]
    exact ⟨_, List.getElem?_eq_getElem (by omega)⟩
  have hsl : slot s d = -m := by unfold slot; rw [hm]; rfl
  constructor
  · rintro ⟨p, hp1, hp2⟩
    rw [hm] at hp1
    have := Option.some.inj hp1
    have : p = slot s d := by omega
    unfold vval
    rw [← this, hp2]; rfl
  · intro hval
    refine ⟨slot s d, by rw [hm, hsl]; simp, ?_⟩
    rw [at1?_vval h1.1 (by omega), hval]

/-- The forces of an element on DOF `d`. -/
def forceOn (D : FEModel R) (e : ElmData R) (d : Nat) : R :=
  (e.b[0]?).elim 0 fun f => ∑ i : Fin (D.dofsOf e.iel).length, if (D.dofsOf e.iel)[i] = some d then vval f ((i:Int)+1) else 0

/-- The internal force of an element at DOF `d` for the field `g`. -/
def internalOn (D : FEModel R) (e : ElmData R) (g : Nat → R) (d : Nat) : R :=
  if e.withLHS = true then
    (e.A[0]?).elim 0 fun M => ∑ i : Fin (D.dofsOf e.iel).length, if (D.dofsOf e.iel)[i] = some d then
      ∑ j : Fin (D.dofsOf e.iel).length, M.val ((i:Int)+1) ((j:Int)+1) * atDof g (D.dofsOf e.iel)[j] else 0
  else 0

/-- One element (with at most one prescribed DOF, see C39) adds to the reaction force of each suppressed DOF its force on this DOF, minus its
internal force for the lift of the prescribed values. -/
theorem reactStep_spec (hp : Packs s0 D) (hv : D.Valid) (h : s0.initSystemEquations = some (s, true)) (hfresh : s0.nspdof = 0)
    (e : ElmData R) (he : DataFits D e) (hone : AtMostOneSlave D e.iel) (rf : List R) (hrf : rf.length = s.nspdof) :
    ∃ rf', reactStep s e.iel rf e = some rf' ∧ rf'.length = s.nspdof ∧
      ∀ g d v, LiftField D g → D.Suppressed d → ReactionAt s rf d v → ReactionAt s rf' d (v + forceOn D e d - internalOn D e g d) := by
  have hr := ready_of_init hp hv h
  have hs := slots_of_init hp h hfresh
  by_cases h0 : rf = []
  · refine ⟨[], by unfold reactStep; rw [if_pos h0], by rw [← hrf, h0], fun g d v _ hd _ => ?_⟩
    have := hs.supp d hd
    rw [h0] at hrf
    simp only [List.length_nil] at hrf
    omega
  unfold reactStep
  rw [if_neg h0]
  have hmem : ∀ o ∈ D.dofsOf e.iel, ∀ d, o = some d → D.Free d ∨ D.Suppressed d := by
    intro o ho d hd
    have hm : D.nodesOf e.iel ∈ D.elems := by
      unfold FEModel.nodesOf
      have := he.range
      rw [List.getD_eq_getElem?_getD, List.getElem?_eq_getElem (by omega)]
      exact List.getElem_mem _
    obtain ⟨a, b⟩ := dofs_ok hv hm o ho d hd
    exact dof_free_or_suppressed hv a b
  obtain ⟨rf1, e1, l1, k1⟩ : ∃ rf1, (if e.rhs = [] then some rf else s.assembleReactions rf e.rhs e.iel) = some rf1 ∧ rf1.length = s.nspdof ∧
      ∀ d v, D.Suppressed d → ReactionAt s rf d v → ReactionAt s rf1 d (v + forceOn D e d) := by
    cases hb : e.b with
    | nil =>
      refine ⟨rf, by unfold ElmData.rhs; rw [hb]; rfl, hrf, fun d v _ hx => ?_⟩
      unfold forceOn
      rw [hb]
      simpa using hx
    | cons f fs =>
      have hf : f.length = (D.dofsOf e.iel).length := he.vecs f (by rw [hb]; exact List.mem_cons_self)
      unfold ElmData.rhs
      rw [hb, List.headD_cons]
      by_cases c : f = []
      · refine ⟨rf, by rw [if_pos c], hrf, fun d v _ hx => ?_⟩
        have : forceOn D e d = 0 := by
          unfold forceOn
          rw [hb]
          dsimp only [List.getElem?_cons_zero, Option.elim]
          apply Finset.sum_eq_zero
          intro i _
          have := i.2
          rw [c] at hf
          simp only [List.length_nil] at hf
          omega
        rw [this, add_zero]; exact hx
      · rw [if_neg c]
        obtain ⟨rf1, a1, a2, a3⟩ := assembleReactions_spec hr hv hs he.range f hf rf
        refine ⟨rf1, a1, by omega, fun d v hd hx => ?_⟩
        have hsl := hs.supp d hd
        rw [reactionAt_iff hs rf1 d _ (by omega) hd, a3 _ hsl.1 (by omega), (reactionAt_iff hs rf d v hrf hd).1 hx,
          rsum_dof hs hv hd (D.dofsOf e.iel) hmem f hf]
        unfold forceOn
        rw [hb]
        rfl
  rw [e1, Option.bind_some]
  by_cases hl : e.withLHS = true
  · rw [if_pos hl]
    cases hA : e.A with
    | nil =>
      refine ⟨rf1, ?_, l1, fun g d v _ hd hx => ?_⟩
      · unfold ElmData.newton
        rw [hA]
        rfl
      · unfold internalOn
        rw [hA]
        simpa using k1 d v hd hx
    | cons M Ms =>
      have hM : MatFits D (D.nodesOf e.iel) M := he.mats M (by rw [hA]; exact List.mem_cons_self)
      have hel : ElemFits D (⟨e.iel, M, List.replicate (D.dofsOf e.iel).length 0⟩ : Elem R) := ⟨he.range, hM, List.length_replicate⟩
      obtain ⟨rf2, b1, b2, b3⟩ := C39_prescribed_reactions_partial hp hv h hfresh hel hone rf1 l1
      unfold ElmData.newton
      rw [hA]
      refine ⟨rf2, b1, b2, fun g d v hg hd hx => ?_⟩
      have := b3 g d _ hg hd (k1 d v hd hx)
      unfold internalOn
      rw [hA, if_pos hl]
      exact this
  · rw [if_neg hl]
    refine ⟨rf1, rfl, l1, fun g d v _ hd hx => ?_⟩
    unfold internalOn
    rw [if_neg hl, sub_zero]
    exact k1 d v hd hx

/-- The reaction forces of a whole element list in a system with one matrix, if no element has more than one prescribed DOF: the sum of the
element forces on each suppressed DOF minus the internal forces for the lift of the prescribed values. -/
theorem C89_reactions (hp : Packs s0 D) (hv : D.Valid) (h : s0.initSystemEquations = some (s, true)) (hfresh : s0.nspdof = 0)
    (n : Nat) (es : List (ElmData R)) (he : ∀ e ∈ es, DataFits D e ∧ AtMostOneSlave D e.iel ∧ e.thread < n) (S : Sys R)
    (hS : SysFits s.neq S.A S.b) (h1 : S.A.length = 1) (h2 : S.b ≠ []) (hR : S.R.length = s.nspdof) (hd : BufferOk n S.c.length S.d) :
    ∃ S', assembleAll s S es = some S' ∧ S'.R.length = s.nspdof ∧
      ∀ g d v, LiftField D g → D.Suppressed d → ReactionAt s S.R d v →
        ReactionAt s S'.R d (v + (es.map fun e => if e.A = [] ∧ e.b = [] then 0 else forceOn D e d - internalOn D e g d).sum) := by
  induction es generalizing S with
  | nil => exact ⟨S, rfl, hR, fun g d v _ _ hx => by simpa using hx⟩
  | cons e es ih =>
    obtain ⟨he1, he2, he3⟩ := he e List.mem_cons_self
    by_cases h0 : e.A = [] ∧ e.b = []
    · obtain ⟨S', e1, l1, k1⟩ := ih (fun x hx => he x (List.mem_cons_of_mem _ hx)) S hS h1 h2 hR hd
      refine ⟨S', ?_, l1, fun g d v hg hs' hx => ?_⟩
      · unfold assembleAll at e1 ⊢
        rw [List.foldlM_cons, C89_scalars_lost s S e h0.1 h0.2]
        exact e1
      · rw [List.map_cons, List.sum_cons, if_pos h0, zero_add]
        exact k1 g d v hg hs' hx
    · obtain ⟨rf', a1, a2, a3⟩ := reactStep_spec hp hv h hfresh e he1 he2 S.R hR
      obtain ⟨A', b', c1, hS', m1, l1, -, -⟩ := C89_element hp hv h e he1 S.A S.b hS
      obtain ⟨c', d', e2, l2, hd', -⟩ := assembleScl_spec n S.c S.d e.thread he3 e.c hd
      have hA' : A'.length = 1 := by simpa [h1] using congrArg List.length m1
      have hb' : b' ≠ [] := by
        intro x; rw [x] at l1
        exact h2 (List.eq_nil_of_length_eq_zero l1.symm)
      obtain ⟨S', e3, l3, k3⟩ := ih (fun x hx => he x (List.mem_cons_of_mem _ hx)) ⟨A', b', c', d', rf'⟩ hS' hA' hb' a2
        (by dsimp only; rw [l2]; exact hd')
      have hass : assemble s S e = some ⟨A', b', c', d', rf'⟩ := by
        unfold assemble
        rw [if_neg h0, if_pos ⟨h1, h2⟩, a1, c1, e2]
      refine ⟨S', ?_, l3, fun g d v hg hs' hx => ?_⟩
      · unfold assembleAll at e3 ⊢
        rw [List.foldlM_cons, hass]
        exact e3
      · have := k3 g d _ hg hs' (a3 g d v hg hs' hx)
        rw [List.map_cons, List.sum_cons, if_neg h0, ← add_assoc, ← add_sub_assoc]
        exact this

/-- In an assembly round the reaction forces start from zero, and only the elements add to them. -/
theorem C89_round_reactions (hp : Packs s0 D) (hv : D.Valid) (h : s0.initSystemEquations = some (s, true)) (hfresh : s0.nspdof = 0)
    (n : Nat) (hn : 1 ≤ n) (initLHS : Bool) (es : List (ElmData R)) (he : ∀ e ∈ es, DataFits D e ∧ AtMostOneSlave D e.iel ∧ e.thread < n) (S : Sys R)
    (hS : SysFits s.neq S.A S.b) (h1 : S.A.length = 1) (h2 : S.b ≠ []) (hR : S.R.length = s.nspdof)
    (hd0 : S.c = []) (hdn : S.d = .null ∨ S.d = .single) (S' : Sys R) (hr : round s S initLHS n es = some S') :
    S'.R.length = s.nspdof ∧ ∀ g d, LiftField D g → D.Suppressed d →
      ReactionAt s S'.R d (es.map fun e => if e.A = [] ∧ e.b = [] then 0 else forceOn D e d - internalOn D e g d).sum := by
  have hA : (initSystem S initLHS n).A = if initLHS then S.A.map fun p => (Mat.zero p.1.nrow p.1.ncol, p.2) else S.A := rfl
  have hb : (initSystem S initLHS n).b = S.b.map fun v => v.map fun _ => 0 := rfl
  have hRi : (initSystem S initLHS n).R = S.R.map fun _ => 0 := rfl
  have hfit : SysFits s.neq (initSystem S initLHS n).A (initSystem S initLHS n).b := by
    refine ⟨fun p hp' => ?_, fun v hv' => ?_, fun p hp' j hj => ?_⟩
    · rw [hA] at hp'
      cases initLHS with
      | false => exact hS.mats p hp'
      | true =>
        obtain ⟨q, hq, rfl⟩ := List.mem_map.1 hp'
        have := hS.mats q hq
        exact ⟨by simp [Mat.WF, Mat.zero], this.2.1, this.2.2⟩
    · rw [hb] at hv'
      obtain ⟨w, hw, rfl⟩ := List.mem_map.1 hv'
      rw [List.length_map]; exact hS.vecs w hw
    · rw [hb, List.length_map]
      rw [hA] at hp'
      cases initLHS with
      | false => exact hS.assoc p hp' j hj
      | true =>
        obtain ⟨q, hq, rfl⟩ := List.mem_map.1 hp'
        exact hS.assoc q hq j hj
  have hdi : BufferOk n (initSystem S initLHS n).c.length (initSystem S initLHS n).d := by
    unfold initSystem
    dsimp only
    rw [if_pos (by rw [hd0]; rfl), hd0]
    rcases hdn with e | e
    · rw [e]; rfl
    · rw [e]; exact Or.inr rfl
  obtain ⟨S1, e1, l1, k1⟩ := C89_reactions hp hv h hfresh n es he (initSystem S initLHS n) hfit
    (by rw [hA]; cases initLHS <;> simp [h1]) (by rw [hb]; simpa using h2) (by rw [hRi, List.length_map]; exact hR) hdi
  have hs := slots_of_init hp h hfresh
  have e2 : S'.R = S1.R := by
    unfold round at hr
    rw [e1, Option.bind_some] at hr
    unfold finalize at hr
    split at hr
    · rw [← Option.some.inj hr]
    · split at hr
      · split at hr
        · split at hr
          · exact absurd hr (by simp)
          · rw [← Option.some.inj hr]
        · exact absurd hr (by simp)
      · rw [← Option.some.inj hr]
  refine ⟨by rw [e2]; exact l1, fun g d hg hd => ?_⟩
  have := k1 g d 0 hg hd ((reactionAt_iff hs _ d 0 (by rw [hRi, List.length_map]; exact hR) hd).2 (by rw [hRi]; exact vval_zero' _ _))
  rw [zero_add] at this
  rw [e2]
  exact this

/-- The hypotheses hold for the first two elements of the example model; the forces on the prescribed DOF 4 are those of C38 and C39. -/
example : exampleTables.nspdof = 0 ∧ AtMostOneSlave exampleModel 2 ∧ exampleModel.Suppressed 4 ∧
    (exampleTables.initSystemEquations.bind fun s =>
      reactStep s.1 2 [0, 0] (⟨2, 0, [⟨3, 3, [4, 1, 0, 1, 5, 2, 0, 2, 6]⟩], [[1, 2, 3]], [], false, true⟩ : ElmData ℤ)) = some [0, -33] := by
  refine ⟨rfl, ?_, ⟨by decide, rfl⟩, by decide +kernel⟩
  intro i j hi hj
  simp only [exampleModel, List.mem_cons, List.not_mem_nil, or_false, exists_eq_left] at hi hj
  have hi' : i = ⟨1, by decide⟩ := by
    revert hi; revert i; decide
  have hj' : j = ⟨1, by decide⟩ := by
    revert hj; revert j; decide
  rw [hi', hj']

end IFEM.AlgSys
