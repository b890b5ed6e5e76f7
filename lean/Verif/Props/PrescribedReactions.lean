import Verif.Lemmas.Reactions
import Verif.Lemmas.RhsOnly
import Verif.Props.Reactions
/-!
# C39: reaction contributions of prescribed values
-/
namespace IFEM.Props
open IFEM.Spec IFEM.Sam
variable {R : Type} [CommRing R]
attribute [-simp] Fin.getElem_fin

/-- The reaction force stored for the suppressed DOF `d` is `v`. -/
def ReactionAt (s : Sam R) (rf : List R) (d : Nat) (v : R) : Prop :=
  ∃ p : Int, at1? s.msc d = some (-p) ∧ at1? rf p = some v

/-- The element has at most one constrained (slave) DOF. -/
def AtMostOneSlave (D : FEModel R) (iel : Nat) : Prop :=
  ∀ i j : Fin (D.dofsOf iel).length, (∃ c ∈ D.cons, (D.dofsOf iel)[i] = some c.slave) →
    (∃ c ∈ D.cons, (D.dofsOf iel)[j] = some c.slave) → i = j

theorem set0?_vval (eS : List R) (i : Nat) (v : R) (hi : i < eS.length) :
    ∃ e', set0? eS i v = some e' ∧ e'.length = eS.length ∧
      ∀ k : Nat, vval e' ((k:Int)+1) = if k = i then v else vval eS ((k:Int)+1) := by
  unfold set0?
  rw [if_pos (by omega)]
  refine ⟨_, rfl, by simp, ?_⟩
  intro k
  unfold vval
  rw [show ((k:Int)+1) = ((k+1 : Nat) : Int) by push_cast; ring, at1?_nat _ _ (by omega), at1?_nat _ _ (by omega)]
  simp only [Nat.add_sub_cancel, Int.toNat_natCast]
  rw [List.getElem?_set]
  by_cases he : k = i
  · subst he; rw [if_pos rfl, if_pos rfl, if_pos hi]; rfl
  · rw [if_neg (by omega), if_neg he]

section Inner
variable (eK : Mat R) (meen : List Int) (M : Nat → Nat → R) (j : Fin meen.length) (c0 : R)

/-- Body of the inner loop of `reacFromMat`. -/
def reacBody (eS : List R) (i : Fin meen.length) : Option (List R) :=
  if meen[i] < 1 then do
    let v ← eK.elm? i j
    set0? (if eS.length = eK.nrow then eS else List.replicate eK.nrow 0) i (-c0 * v)
  else some eS

theorem reacInner (hrow : eK.nrow = meen.length) (hM : ∀ i : Fin meen.length, eK.elm? i j = some (M i j))
    (is : List (Fin meen.length)) : ∀ eS : List R, eS.length = meen.length →
    ∃ e', is.foldlM (reacBody eK meen j c0) eS = some e' ∧ e'.length = meen.length ∧
      ∀ k : Fin meen.length, vval e' ((k:Int)+1) = if k ∈ is ∧ meen[k] < 1 then -c0 * M k j else vval eS ((k:Int)+1) := by
  induction is with
  | nil => intro eS h; exact ⟨eS, rfl, h, by simp⟩
  | cons i is ih =>
    intro eS h
    by_cases hi : meen[i] < 1
    · obtain ⟨e1, a1, a2, a3⟩ := set0?_vval eS i (-c0 * M i j) (by omega)
      obtain ⟨e2, b1, b2, b3⟩ := ih e1 (by omega)
      refine ⟨e2, ?_, b2, ?_⟩
      · rw [List.foldlM_cons]
        have : reacBody eK meen j c0 eS i = some e1 := by
          unfold reacBody
          rw [if_pos hi, hM i, if_pos (by omega)]
          exact a1
        rw [this]; exact b1
      · intro k
        rw [b3, a3]
        by_cases hk : k = i
        · subst hk
          by_cases hm : k ∈ is
          · rw [if_pos ⟨hm, hi⟩, if_pos ⟨List.mem_cons_self, hi⟩]
          · rw [if_neg (fun h => hm h.1), if_pos rfl, if_pos ⟨List.mem_cons_self, hi⟩]
        · have hne : k.1 ≠ i.1 := fun h => hk (Fin.ext h)
          have hiff : (k ∈ i :: is ∧ meen[k] < 1) ↔ (k ∈ is ∧ meen[k] < 1) := by simp [hk]
          simp only [hiff, if_neg hne]
    · obtain ⟨e2, b1, b2, b3⟩ := ih eS h
      refine ⟨e2, ?_, b2, ?_⟩
      · rw [List.foldlM_cons]
        have : reacBody eK meen j c0 eS i = some eS := by unfold reacBody; rw [if_neg hi]
        rw [this]; exact b1
      · intro k
        rw [b3]
        by_cases hk : k = i
        · subst hk
          rw [if_neg (fun h => hi h.2), if_neg (fun h => hi h.2)]
        · have hiff : (k ∈ i :: is ∧ meen[k] < 1) ↔ (k ∈ is ∧ meen[k] < 1) := by simp [hk]
          simp only [hiff]

theorem reacInner_nil (hrow : eK.nrow = meen.length) (is : List (Fin meen.length))
    (hex : ∃ i ∈ is, meen[i] < 1) :
    is.foldlM (reacBody eK meen j c0) [] = is.foldlM (reacBody eK meen j c0) (List.replicate meen.length 0) := by
  induction is with
  | nil => obtain ⟨i, hi, -⟩ := hex; cases hi
  | cons i is ih =>
    rw [List.foldlM_cons, List.foldlM_cons]
    by_cases hi : meen[i] < 1
    · have : reacBody eK meen j c0 [] i = reacBody eK meen j c0 (List.replicate meen.length 0) i := by
        unfold reacBody
        rw [if_pos hi, if_pos hi, if_neg, if_pos (by simp [hrow]), hrow]
        have := i.2
        simp only [List.length_nil]; omega
      rw [this]
    · have h1 : ∀ eS, reacBody eK meen j c0 eS i = some eS := by intro eS; unfold reacBody; rw [if_neg hi]
      rw [h1, h1]
      apply ih
      obtain ⟨i', hm, hi'⟩ := hex
      rcases List.mem_cons.1 hm with rfl | hm
      · exact absurd hi' hi
      · exact ⟨i', hm, hi'⟩

end Inner

/-- Body of the outer loop of `reacFromMat`. -/
def reacCol (s : Sam R) (eK : Mat R) (meen : List Int) (eS : List R) (j : Fin meen.length) : Option (List R) :=
  if -meen[j] < 1 then some eS else do
    let c0 ← s.offset? (-meen[j])
    (List.finRange meen.length).foldlM (reacBody eK meen j c0) eS

theorem reacFromMat_eq (s : Sam R) (eK : Mat R) (meen : List Int) :
    s.reacFromMat eK meen = (List.finRange meen.length).foldlM (reacCol s eK meen) [] := rfl

theorem reacCol_skip (s : Sam R) (eK : Mat R) (meen : List Int) (js : List (Fin meen.length))
    (hjs : ∀ j ∈ js, ¬ meen[j] < 0) (eS : List R) : js.foldlM (reacCol s eK meen) eS = some eS := by
  induction js with
  | nil => rfl
  | cons j js ih =>
    have hj := hjs j List.mem_cons_self
    rw [List.foldlM_cons]
    have : reacCol s eK meen eS j = some eS := by unfold reacCol; rw [if_pos (by omega)]
    rw [this]; exact ih (fun j h => hjs j (List.mem_cons_of_mem _ h))

/-- With at most one constrained element DOF, the element vector of reaction contributions is `-K g`. -/
theorem reacFromMat_spec (s : Sam R) (eK : Mat R) (meen : List Int) (M : Nat → Nat → R) (g : Int → R)
    (hrow : eK.nrow = meen.length) (hM : ∀ i j : Fin meen.length, eK.elm? i j = some (M i j))
    (hoff : ∀ x ∈ meen, x < 0 → s.offset? (-x) = some (g x))
    (hone : ∀ i j : Fin meen.length, meen[i] < 0 → meen[j] < 0 → i = j) :
    ∃ eS, s.reacFromMat eK meen = some eS ∧
      ((eS = [] ∧ ∀ j : Fin meen.length, ¬ meen[j] < 0) ∨ (eS.length = meen.length ∧ eS ≠ [] ∧
        ∀ k : Fin meen.length, meen[k] < 1 → vval eS ((k:Int)+1) =
          -∑ j : Fin meen.length, M k j * (if meen[j] < 0 then g meen[j] else 0))) := by
  rw [reacFromMat_eq]
  by_cases hex : ∃ j : Fin meen.length, meen[j] < 0
  · obtain ⟨j, hj⟩ := hex
    obtain ⟨l1, l2, hl⟩ := List.append_of_mem (List.mem_finRange j)
    have hnd : (l1 ++ j :: l2).Nodup := hl ▸ List.nodup_finRange _
    have h12 : ∀ j' ∈ l1 ++ l2, ¬ meen[j'] < 0 := by
      intro j' hm hj'
      have := hone j' j hj' hj
      subst this
      rw [List.nodup_middle] at hnd
      exact (List.nodup_cons.1 hnd).1 hm
    obtain ⟨e, a1, a2, a3⟩ := reacInner eK meen M j (g meen[j]) hrow (fun i => hM i j) (List.finRange meen.length)
      (List.replicate meen.length 0) (by simp)
    refine ⟨e, ?_, Or.inr ⟨a2, ?_, ?_⟩⟩
    · rw [hl, List.foldlM_append, reacCol_skip s eK meen l1 (fun j' h => h12 j' (by simp [h]))]
      simp only [Option.bind_eq_bind, Option.bind_some]
      rw [List.foldlM_cons]
      have : reacCol s eK meen [] j = some e := by
        unfold reacCol
        rw [if_neg (by omega), hoff meen[j] (List.getElem_mem j.2) hj]
        simp only [Option.bind_eq_bind, Option.bind_some]
        rw [reacInner_nil eK meen j _ hrow _ ⟨j, List.mem_finRange j, by omega⟩]
        exact a1
      rw [this]
      simp only [Option.bind_eq_bind, Option.bind_some]
      exact reacCol_skip s eK meen l2 (fun j' h => h12 j' (by simp [h])) e
    · intro h0; have := j.2; rw [h0] at a2; simp at a2; omega
    · intro k hk
      rw [a3, if_pos ⟨List.mem_finRange k, hk⟩, Finset.sum_eq_single j]
      · rw [if_pos hj]; ring
      · intro b _ hb
        rw [if_neg (fun h => hb (hone b j h hj)), mul_zero]
      · intro h; exact absurd (Finset.mem_univ j) h
  · refine ⟨[], reacCol_skip s eK meen _ (fun j _ h => hex ⟨j, h⟩) [], Or.inl ⟨rfl, fun j h => hex ⟨j, h⟩⟩⟩

/-- Internal force at DOF `d` of element `e` under the field `g` (the row sums `K_e g` at the element DOFs equal to `d`). -/
def elmForceAt (D : FEModel R) (e : Elem R) (g : Nat → R) (d : Nat) : R :=
  ∑ i : Fin (D.dofsOf e.iel).length, if (D.dofsOf e.iel)[i] = some d then
    ∑ j : Fin (D.dofsOf e.iel).length, e.eK.val ((i:Int)+1) ((j:Int)+1) * atDof g (D.dofsOf e.iel)[j] else 0

/-- **C39** (partial: elements with at most one constrained DOF).  Assembling an element matrix with reaction
forces adds `-(K_e g)(d)` to the reaction force of every suppressed DOF `d`, where `g` is the lift of the prescribed
values.  Missing: elements with several constrained DOFs, where the code violates the
property, see `C39_overwrite_counterexample`. -/
theorem C39_prescribed_reactions_partial {s0 s : Sam R} {D : FEModel R} (hp : Packs s0 D) (hv : D.Valid)
    (h : s0.initSystemEquations = some (s, true)) (hfresh : s0.nspdof = 0) {e : Elem R} (he : ElemFits D e)
    (hone : AtMostOneSlave D e.iel) (rf : List R) (hrf : rf.length = s.nspdof) :
    ∃ rf', s.assembleMatReactions rf e.eK e.iel = some rf' ∧ rf'.length = s.nspdof ∧
      ∀ g d v, LiftField D g → D.Suppressed d → ReactionAt s rf d v →
        ReactionAt s rf' d (v - elmForceAt D e g d) := by
  have hr := ready_of_init hp hv h
  have hs := slots_of_init hp h hfresh
  have hmem := nodesOf_mem he
  have hdofs : ∀ i : Fin (D.dofsOf e.iel).length, ∀ d, (D.dofsOf e.iel)[i] = some d → 1 ≤ d ∧ d ≤ D.status.length :=
    fun i => dofs_ok hv hmem _ (List.getElem_mem i.2)
  have hobs : ∀ (rf : List R) d v, rf.length = s.nspdof → D.Suppressed d →
      (ReactionAt s rf d v ↔ vval rf (slot s d) = v) := by
    intro rf d v hl hd
    have h1 := hs.supp d hd
    obtain ⟨m, hm⟩ : ∃ m, at1? s.msc (d:Int) = some m := by
      have hst := (List.getElem?_eq_some_iff.1 hd.2).1
      have := hs.len
      rw [at1?_nat _ _ hd.1]
      exact ⟨_, List.getElem?_eq_getElem (by omega)⟩
    have hsl : slot s d = -m := by unfold slot; rw [hm]; rfl
    constructor
    · rintro ⟨p, hp1, hp2⟩
      rw [hm] at hp1
      have := Option.some.inj hp1
      have : p = slot s d := by omega
      unfold vval
      rw [← this, hp2]; rfl
    · intro hval
      refine ⟨slot s d, by rw [hm, hsl]; simp, ?_⟩
      rw [at1?_vval h1.1 (by omega), hval]
  unfold assembleMatReactions
  by_cases hemp : e.eK.isEmpty
  · rw [if_pos hemp]
    have hl : (D.dofsOf e.iel).length = 0 := by
      have h1 := he.mat.wf
      unfold Mat.WF at h1
      unfold Mat.isEmpty at hemp
      rw [he.mat.row, he.mat.col, List.isEmpty_iff.1 hemp] at h1
      simpa [FEModel.dofsOf] using h1.symm
    refine ⟨rf, rfl, hrf, ?_⟩
    intro g d v _ _ hv'
    have : elmForceAt D e g d = 0 := by
      unfold elmForceAt
      apply Finset.sum_eq_zero
      intro i _; exact absurd i.2 (by omega)
    rw [this, sub_zero]; exact hv'
  rw [if_neg hemp, ← iel_cast he, getElmEqns_ready hr hv (nodesOf_get he) _ (Or.inr (Or.inr he.mat.row))]
  simp only [Option.bind_eq_bind, Option.bind_some]
  have hlen : ((D.elmDofs (D.nodesOf e.iel)).map (eqvO s)).length = (D.elmDofs (D.nodesOf e.iel)).length := by simp
  have hget : ∀ i : Fin ((D.elmDofs (D.nodesOf e.iel)).map (eqvO s)).length,
      ((D.elmDofs (D.nodesOf e.iel)).map (eqvO s))[i] = eqvO s ((D.elmDofs (D.nodesOf e.iel))[i.1]'(by have := i.2; omega)) := by
    intro i; exact List.getElem_map ..
  have hfac : ∀ x ∈ (D.elmDofs (D.nodesOf e.iel)).map (eqvO s), ∃ o, (∀ d, o = some d → 1 ≤ d ∧ d ≤ D.status.length) ∧ x = eqvO s o := by
    intro x hx
    obtain ⟨o, ho, rfl⟩ := List.mem_map.1 hx
    exact ⟨o, dofs_ok hv hmem o ho, rfl⟩
  obtain ⟨eS, a1, a2⟩ := reacFromMat_spec s e.eK ((D.elmDofs (D.nodesOf e.iel)).map (eqvO s))
    (fun i j => e.eK.val ((i:Int)+1) ((j:Int)+1)) (gOf D) (by rw [he.mat.row, hlen])
    (by intro i j; apply elm_fits he.mat <;> omega)
    (by
      intro x hx hn
      obtain ⟨o, ho, rfl⟩ := hfac x hx
      exact (tm_facts hr hv ho hn).2.1)
    (by
      intro i j hi hj
      rw [hget] at hi hj
      obtain ⟨k, c, hc, ho, -⟩ := neg_code hr hv (dofs_ok hv hmem _ (List.getElem_mem _)) hi
      obtain ⟨k', c', hc', ho', -⟩ := neg_code hr hv (dofs_ok hv hmem _ (List.getElem_mem _)) hj
      have := hone ⟨i.1, lt_of_lt_of_eq i.2 hlen⟩ ⟨j.1, lt_of_lt_of_eq j.2 hlen⟩
        ⟨c, List.mem_of_getElem? hc, ho⟩ ⟨c', List.mem_of_getElem? hc', ho'⟩
      have h2 := congrArg Fin.val this
      exact Fin.ext h2)
  rw [a1]
  simp only [Option.bind_some]
  have hgval : ∀ g, LiftField D g → ∀ j : Fin (D.dofsOf e.iel).length, atDof g (D.dofsOf e.iel)[j] =
      if eqvO s (D.dofsOf e.iel)[j] < 0 then gOf D (eqvO s (D.dofsOf e.iel)[j]) else 0 :=
    fun g hg j => lift_val hr hv hg (hdofs j)
  rcases a2 with ⟨rfl, hno⟩ | ⟨b1, b2, b3⟩
  · rw [if_pos rfl]
    refine ⟨rf, rfl, hrf, ?_⟩
    intro g d v hg _ hv'
    have : elmForceAt D e g d = 0 := by
      unfold elmForceAt
      apply Finset.sum_eq_zero
      intro i _
      split
      · apply Finset.sum_eq_zero
        intro j _
        rw [hgval g hg j, if_neg, mul_zero]
        have := hno ⟨j.1, by have := j.2; unfold FEModel.dofsOf at this; omega⟩
        rw [hget] at this
        exact this
      · rfl
    rw [this, sub_zero]; exact hv'
  · rw [if_neg b2, iel_cast he]
    have hl : eS.length = (D.dofsOf e.iel).length := by rw [b1, hlen]; rfl
    obtain ⟨rf', c1, c2, c3⟩ := assembleReactions_spec hr hv hs he.range eS hl rf
    refine ⟨rf', c1, by omega, ?_⟩
    intro g d v hg hd hv'
    have hsl := hs.supp d hd
    rw [hobs rf' d _ (by omega) hd, c3 _ hsl.1 (by omega), (hobs rf d v hrf hd).1 hv', sub_eq_add_neg]
    congr 1
    rw [rsum_dof hs hv hd (D.dofsOf e.iel) _ eS hl]
    · unfold elmForceAt
      rw [← Finset.sum_neg_distrib]
      apply Finset.sum_congr rfl
      intro i _
      by_cases hi : (D.dofsOf e.iel)[i] = some d
      · rw [if_pos hi, if_pos hi]
        have hk : eqvO s (D.dofsOf e.iel)[i] < 1 := by
          rw [hi]
          have hrng := hdofs i d hi
          rcases dof_cases D hv hrng.1 hrng.2 with hf | ⟨k, c, hc, rfl⟩ | ⟨h1, h2⟩
          · have := hs.free d hf; omega
          · simp only [eqvO]; rw [eqv_slave hr hc]; omega
          · simp only [eqvO]; rw [eqv_fixed hr h1 h2]; omega
        have := b3 ⟨i.1, by rw [hlen]; exact i.2⟩ (by rw [hget]; exact hk)
        rw [this]
        congr 1
        rw [sum_fin_map (D.elmDofs (D.nodesOf e.iel)) (eqvO s) (fun j x =>
          e.eK.val ((i:Int)+1) ((j:Int)+1) * (if x < 0 then gOf D x else 0))]
        apply Finset.sum_congr rfl
        intro j _
        rw [hgval g hg j]; rfl
      · rw [if_neg hi, if_neg hi, neg_zero]
    · intro o ho e' he'
      obtain ⟨a, b⟩ := dofs_ok hv hmem o ho e' he'
      exact dof_free_or_suppressed hv a b

/-- The example model meets the hypotheses: its second element has exactly one constrained DOF (DOF 4, offset 7), and
the reaction at DOF 4 gets `-(K_e g)`, here `-5·7`. -/
example : AtMostOneSlave exampleModel 2 ∧ ∃ s, exampleTables.initSystemEquations = some (s, true) ∧
    s.assembleMatReactions [0, 0] (⟨3, 3, [4, 1, 0, 1, 5, 2, 0, 2, 6]⟩ : Mat ℤ) 2 = some [0, -35] := by
  refine ⟨?_, _, rfl, by decide⟩
  intro i j ⟨c, hc, h⟩ ⟨c', hc', h'⟩
  simp only [exampleModel, List.mem_singleton] at hc hc'
  subst hc; subst hc'
  revert i j
  decide

/-- Two DOFs of one node, both prescribed to 1. -/
def overwriteModel : FEModel ℤ :=
  { nndof := [2], status := [0, 0], cons := [⟨1, 1, []⟩, ⟨2, 1, []⟩], elems := [[1]] }

def overwriteTables : Sam ℤ :=
  { nnod := 1, nel := 1, ndof := 2, nceq := 2, mpmnpc := [1, 2], mmnpc := [1],
    madof := [1, 3], msc := [0, 0], mpmceq := [1, 2, 3], mmceq := [1, 2], ttcc := [1, 1] }

/-- **C39** (counterexample, F3). With two prescribed DOFs in one element the contribution of the first is overwritten by
the second (`eS(i) = -c0*eK(i,j)` in SAM.C:455 and SAM.C:503 should accumulate): for `K = [[5,2],[2,7]]`, `g = (1,1)` the
reactions must be `-(7, 9)` but the code gives `-(2, 7)`. -/
theorem C39_overwrite_counterexample : overwriteModel.Valid ∧ LiftField overwriteModel (fun _ => 1) ∧
    ∃ s, overwriteTables.initSystemEquations = some (s, true) ∧
      s.assembleMatReactions [0, 0] (⟨2, 2, [5, 2, 2, 7]⟩ : Mat ℤ) 1 = some [-2, -7] ∧
      elmForceAt overwriteModel ⟨1, ⟨2, 2, [5, 2, 2, 7]⟩, [0, 0]⟩ (fun _ => 1) 1 = 7 := by
  refine ⟨?_, ?_, _, rfl, by decide, by decide⟩
  · exact { ndof := rfl, status := by decide
            slave := by
              intro c hc; simp [overwriteModel] at hc
              rcases hc with rfl | rfl <;> exact ⟨by decide, rfl⟩
            master := by
              intro c hc m hm; simp [overwriteModel] at hc
              rcases hc with rfl | rfl <;> simp at hm
            unique := by decide
            nodes := by decide }
  · refine ⟨⟨?_, ?_⟩, ?_⟩
    · intro c hc; simp [overwriteModel] at hc
      rcases hc with rfl | rfl <;> simp
    · rintro d ⟨h1, h2⟩ hn
      have hl := (List.getElem?_eq_some_iff.1 h2).1
      simp [overwriteModel] at hl hn
      omega
    · rintro d ⟨h1, h2⟩
      simp only [overwriteModel] at h2
      rcases d with _ | _ | _ | d <;> simp at h1 h2

end IFEM.Props
