import Verif.Lemmas.Reactions
import Verif.Props.Assembly
/-!
# C38: reaction forces
-/
namespace IFEM.Props
open IFEM.Spec IFEM.Sam
variable {R : Type} [CommRing R]

/-- Sum over the elements of the element-vector components at DOF `d`. -/
def forceAt (D : FEModel R) (es : List (Elem R)) (d : Nat) : R :=
  (es.map fun e => ∑ i : Fin (D.dofsOf e.iel).length,
    if (D.dofsOf e.iel)[i] = some d then vval e.eF ((i : Int) + 1) else 0).sum

theorem dof_free_or_suppressed {D : FEModel R} (hv : D.Valid) {d : Nat} (h1 : 1 ≤ d) (h2 : d ≤ D.status.length) :
    D.Free d ∨ D.Suppressed d := by
  have hg : D.status[d-1]? = some D.status[d-1] := List.getElem?_eq_getElem (by omega)
  rcases hv.status _ (List.getElem_mem (l := D.status) (n := d-1) (by omega)) with h | h | h
  · right; exact ⟨h1, by rw [hg, h]⟩
  · left; exact ⟨h1, Or.inl (by rw [hg, h])⟩
  · left; exact ⟨h1, Or.inr (by rw [hg, h])⟩

theorem nodalReactions_spec {s : Sam R} {D : FEModel R} (hr : Ready s D) (hv : D.Valid) (hs : Slots s D)
    (rf : List R) (hrf : rf.length = s.nspdof) {n : Nat} (h1 : 1 ≤ n) (h2 : n ≤ D.nndof.length) :
    s.getNodalReactions n rf = some ((D.nodeDofs n).map (fun d => if slot s d > 0 then vval rf (slot s d) else 0),
      (D.nodeDofs n).any fun d => slot s d > 0) := by
  have hmadof1 := hr.madof n h1 (by omega)
  have hmadof2 := hr.madof (n+1) (by omega) (by omega)
  have hle : D.firstDof (n+1) ≤ 1 + D.nndof.sum := firstDof_le D (n+1)
  have hpos : 1 ≤ D.firstDof n := by unfold FEModel.firstDof; omega
  have hsucc := firstDof_succ D h1 h2
  have hmem : ∀ d ∈ D.nodeDofs n, 1 ≤ d ∧ d ≤ D.status.length := by
    intro d hd
    unfold FEModel.nodeDofs at hd
    rw [List.mem_range'_1] at hd
    have := hv.ndof
    omega
  have hms : slice0? s.msc ((D.firstDof n : Int) - 1) ((D.firstDof (n+1) : Int) - 1) =
      some ((D.nodeDofs n).map fun d => -slot s d) := by
    by_cases hz : D.nndof.getD (n-1) 0 = 0
    · unfold slice0?
      rw [if_pos (by have := hs.len; have := hv.ndof; omega)]
      congr 1
      unfold FEModel.nodeDofs
      rw [hz]
      have : (((D.firstDof (n+1) : Int) - 1) - ((D.firstDof n : Int) - 1)).toNat = 0 := by omega
      rw [this]
      simp
    · have e := slice0?_of_pointwise (a := s.msc) (e := (D.nodeDofs n).map fun d => -slot s d) (i := (D.firstDof n : Int) - 1)
        (by unfold FEModel.nodeDofs; simp only [ne_eq, List.map_eq_nil_iff, List.range'_eq_nil_iff]; exact hz)
        (by
          intro j m hj
          rw [List.getElem?_map] at hj
          obtain ⟨d, hd, rfl⟩ := Option.map_eq_some_iff.1 hj
          have hdm := hmem d (List.mem_of_getElem? hd)
          unfold FEModel.nodeDofs at hd
          obtain ⟨hjl, hd⟩ := List.getElem?_eq_some_iff.1 hd
          rw [List.getElem_range'] at hd
          have : (D.firstDof n : Int) - 1 + (j : Int) = (d : Int) - 1 := by omega
          rw [this]
          have hs2 := hs.len
          have : at1? s.msc (d : Int) = some s.msc[d-1] := by
            rw [at1?_nat _ _ hdm.1]; exact List.getElem?_eq_getElem (by omega)
          unfold slot
          rw [this]
          simpa [at1?] using this)
      rw [← e]
      congr 1
      rw [hsucc]
      unfold FEModel.nodeDofs
      simp; omega
  unfold getNodalReactions
  have hnn := hr.nnod
  rw [if_neg (by omega)]
  have e1 : at0? s.madof ((n : Int) - 1) = some (D.firstDof n : Int) := hmadof1
  have e2 : at0? s.madof (n : Int) = some (D.firstDof (n+1) : Int) := by
    rw [← hmadof2]; unfold at1?; congr 1; omega
  rw [e1, e2]
  simp only [Option.bind_eq_bind, Option.bind_some]
  rw [hms]
  simp only [Option.bind_some]
  have hsl : ∀ d ∈ D.nodeDofs n, slot s d ≤ rf.length := by
    intro d hd
    obtain ⟨a, b⟩ := hmem d hd
    rcases dof_free_or_suppressed hv a b with h | h
    · have := hs.free d h; omega
    · have := hs.supp d h; omega
  rw [List.mapM_map]
  have hmm := mapM_some (D.nodeDofs n) (fun (d : Nat) =>
      if -slot s d < 0 ∧ - -slot s d ≤ (rf.length : Int) then at1? rf (- -slot s d) else some 0)
    (fun d => if slot s d > 0 then vval rf (slot s d) else 0) (by
      intro d hd
      have := hsl d hd
      by_cases hc : slot s d > 0
      · rw [if_pos (by omega), if_pos hc, neg_neg]
        exact vval_at1? (by omega) (by omega)
      · rw [if_neg (by omega), if_neg hc])
  have hfun : ((fun m : Int => if m < 0 ∧ -m ≤ (rf.length : Int) then at1? rf (-m) else some 0) ∘ fun d => -slot s d) =
      fun (d : Nat) => if -slot s d < 0 ∧ - -slot s d ≤ (rf.length : Int) then at1? rf (- -slot s d) else some 0 := rfl
  rw [hfun, hmm]
  simp only [Option.bind_some]
  show some (_, _) = some (_, _)
  congr 2
  rw [List.any_map]
  apply Bool.eq_iff_iff.2
  simp only [List.any_eq_true, Function.comp, decide_eq_true_eq]
  constructor
  · rintro ⟨d, hd, h, -⟩; exact ⟨d, hd, by omega⟩
  · rintro ⟨d, hd, h⟩; exact ⟨d, hd, by omega, by have := hsl d hd; omega⟩

/-- Accumulation of the reaction forces over a list of elements. -/
theorem reactions_fold {s : Sam R} {D : FEModel R} (hr : Ready s D) (hv : D.Valid) (hs : Slots s D) : ∀ (es : List (Elem R)), (∀ e ∈ es, ElemFits D e) → ∀ rf : List R, rf.length = s.nspdof →
      ∃ rf', es.foldlM (fun rf e => s.assembleReactions rf e.eF e.iel) rf = some rf' ∧ rf'.length = s.nspdof ∧
        ∀ d, D.Suppressed d → vval rf' (slot s d) = vval rf (slot s d) + forceAt D es d := by
    intro es
    induction es with
    | nil => intro _ rf h; exact ⟨rf, rfl, h, by simp [forceAt]⟩
    | cons e es ih =>
      intro hes rf hrf
      have he := hes e List.mem_cons_self
      obtain ⟨rf1, a1, a2, a3⟩ := assembleReactions_spec hr hv hs he.range e.eF he.vec rf
      obtain ⟨rf2, b1, b2, b3⟩ := ih (fun e h => hes e (List.mem_cons_of_mem _ h)) rf1 (by omega)
      refine ⟨rf2, ?_, b2, ?_⟩
      · rw [List.foldlM_cons, a1]; exact b1
      · intro d hd
        have hsl := hs.supp d hd
        rw [b3 d hd, a3 _ hsl.1 (by omega), rsum_dof hs hv hd (D.dofsOf e.iel) _ e.eF he.vec]
        · unfold forceAt
          rw [List.map_cons, List.sum_cons, add_assoc]
        · intro o ho e' he'
          obtain ⟨a, b⟩ := dofs_ok hv (nodesOf_mem he) o ho e' he'
          exact dof_free_or_suppressed hv a b

/-- **C38**. Accumulating the reaction forces over any list of elements succeeds (no array is left), and the nodal
reactions reported afterwards are, for every node: at each suppressed DOF the sum over the elements of the element-vector
components acting on that DOF, and zero at each free DOF; reactions are reported to exist exactly for nodes with a
suppressed DOF. -/
theorem C38_reactions {s0 s : Sam R} {D : FEModel R} (hp : Packs s0 D) (hv : D.Valid) (hfresh : s0.nspdof = 0)
    (h : s0.initSystemEquations = some (s, true)) (es : List (Elem R)) (hes : ∀ e ∈ es, ElemFits D e) :
    ∃ rf, es.foldlM (fun rf e => s.assembleReactions rf e.eF e.iel) (List.replicate s.nspdof 0) = some rf ∧
    ∀ n, 1 ≤ n → n ≤ D.nndof.length → ∃ vals any, s.getNodalReactions n rf = some (vals, any) ∧
      vals.length = (D.nodeDofs n).length ∧ (any = true ↔ ∃ d ∈ D.nodeDofs n, D.Suppressed d) ∧
      ∀ (k d : Nat), (D.nodeDofs n)[k]? = some d →
        (D.Suppressed d → vals[k]? = some (forceAt D es d)) ∧ (D.Free d → vals[k]? = some 0) := by
  have hr := ready_of_init hp hv h
  have hs := slots_of_init hp h hfresh
  obtain ⟨rf, h1, h2, h3⟩ := reactions_fold hr hv hs es hes (List.replicate s.nspdof 0) (by simp)
  refine ⟨rf, h1, ?_⟩
  intro n hn1 hn2
  refine ⟨_, _, nodalReactions_spec hr hv hs rf h2 hn1 hn2, by simp, ?_, ?_⟩
  · simp only [List.any_eq_true, decide_eq_true_eq]
    constructor
    · rintro ⟨d, hd, hsl⟩
      refine ⟨d, hd, ?_⟩
      have hrange : 1 ≤ d ∧ d ≤ D.status.length := by
        have hsucc := firstDof_succ D hn1 hn2
        have hle : D.firstDof (n+1) ≤ 1 + D.nndof.sum := firstDof_le D (n+1)
        have hpos : 1 ≤ D.firstDof n := by unfold FEModel.firstDof; omega
        unfold FEModel.nodeDofs at hd
        rw [List.mem_range'_1] at hd
        have := hv.ndof
        omega
      rcases dof_free_or_suppressed hv hrange.1 hrange.2 with h | h
      · have := hs.free d h; omega
      · exact h
    · rintro ⟨d, hd, hsl⟩
      exact ⟨d, hd, by have := hs.supp d hsl; omega⟩
  · intro k d hk
    rw [List.getElem?_map, hk]
    constructor
    · intro hd
      have := hs.supp d hd
      rw [Option.map_some, if_pos (by omega), h3 d hd, vval_replicate, zero_add]
    · intro hd
      have := hs.free d hd
      rw [Option.map_some, if_neg (by omega)]

/-- The example model has a fresh table, suppressed DOFs 2 and 4, and a non-zero reaction at DOF 4 from two elements. -/
example : ∃ s rf, exampleTables.initSystemEquations = some (s, true) ∧ exampleTables.nspdof = 0 ∧
    [(⟨2, ⟨3, 3, [4, 1, 0, 1, 5, 2, 0, 2, 6]⟩, [1, 2, 3]⟩ : Elem ℤ),
     ⟨3, ⟨4, 4, List.replicate 16 0⟩, [10, 20, 30, 40]⟩].foldlM
      (fun rf e => s.assembleReactions rf e.eF e.iel) (List.replicate s.nspdof 0) = some rf ∧
    s.getNodalReactions 3 rf = some ([12, 0], true) := by
  refine ⟨_, _, rfl, rfl, rfl, by decide⟩

end IFEM.Props
