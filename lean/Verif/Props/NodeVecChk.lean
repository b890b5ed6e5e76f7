import Verif.Props.NodeVec
/-!
# C22: extraction and injection with index checks, node types and Lagrange multipliers
-/
namespace IFEM.Props
open IFEM IFEM.Spec IFEM.Lem

variable {α : Type}

/-- The checked extraction with the correct number of nodes accepts exactly the patches whose nodes are all in range, and then returns the
values of their DOFs.  An outcome is always reported. -/
theorem C22_extract_checked_iff {madof : List Int} {n ndof : Nat} (h : DofLayout madof n ndof) (hn : 0 < n) (g : List α) (hg : ndof ≤ g.length)
    (nodes : List Int) (v0 : List α) :
    ∃ b v, extractNodalLoopChk g madof (n : Int) nodes v0 = some (b, v0 ++ v) ∧
      (b = true ↔ ∀ i ∈ nodes, 1 ≤ i ∧ i ≤ (n : Int)) ∧ (b = true → IsGather (patchDofs madof nodes) g v) := by
  induction nodes generalizing v0 with
  | nil =>
    refine ⟨true, [], by simp [extractNodalLoopChk], by simp, fun _ => ⟨rfl, fun k d hk => ?_⟩⟩
    simp [patchDofs] at hk
  | cons i l ih =>
    rw [extractNodalLoopChk]
    by_cases hr : 1 ≤ i ∧ i ≤ (n : Int)
    · obtain ⟨o, m, ea, eb, hle, e⟩ := layout_node h i hr.1 hr.2
      rw [if_neg (by omega), ea, eb, patchDofs_cons, e]
      simp only [Option.bind_eq_bind, Option.bind_some]
      by_cases hm : m = 0
      · subst hm
        rw [if_pos (by omega)]
        obtain ⟨b, v, e1, e2, e3⟩ := ih v0
        refine ⟨b, v, e1, ?_, fun hb => by simpa using e3 hb⟩
        rw [e2]
        simp only [List.mem_cons, forall_eq_or_imp, hr, true_and, and_self]
      · rw [if_neg (by omega), if_neg (by omega), show (o : Int) + 1 - 1 = o by omega,
          show (o : Int) + m + 1 - 1 = (o : Int) + m by omega, slice0_nat g o m (by omega)]
        simp only [Option.bind_some]
        obtain ⟨b, v, e1, e2, e3⟩ := ih (v0 ++ (g.drop o).take m)
        refine ⟨b, (g.drop o).take m ++ v, by rw [e1, List.append_assoc], ?_,
          fun hb => isGather_append _ _ _ _ _ (isGather_slice g o m (by omega)) (e3 hb)⟩
        rw [e2]
        simp only [List.mem_cons, forall_eq_or_imp, hr, true_and, and_self]
    · rw [if_pos (by omega)]
      refine ⟨false, [], by simp, ?_, by simp⟩
      simp only [List.mem_cons, forall_eq_or_imp]
      simp
      intro h1 h2
      exact absurd ⟨h1, h2⟩ hr

/-- The checked injection of the values of all DOFs of nodes in range is accepted and stores them as the unchecked one does. -/
theorem C22_inject_checked_accepts {madof : List Int} {n ndof : Nat} (h : DofLayout madof n ndof) (g : List α) (hg : ndof ≤ g.length)
    (nodes : List Int) (hl : ∀ i ∈ nodes, 1 ≤ i ∧ i ≤ (n : Int)) (v : List α) (hv : v.length = (patchDofs madof nodes).length) :
    ∃ g', injectNodalLoopChk v madof nodes 0 g = some (true, g') ∧ IsScatter (patchDofs madof nodes) v g g' := by
  have key : ∀ (nodes : List Int) (_ : ∀ i ∈ nodes, 1 ≤ i ∧ i ≤ (n : Int)) (g : List α) (_ : ndof ≤ g.length) (w : List α) (ld : Nat)
      (_ : ld + (patchDofs madof nodes).length ≤ w.length),
      injectNodalLoopChk w madof nodes ld g = (injectNodalLoop w madof nodes ld g).map fun g' => (true, g') := by
    intro nodes
    induction nodes with
    | nil => intro _ g _ w ld _; simp [injectNodalLoopChk, injectNodalLoop]
    | cons i l ih =>
      intro hl g hg w ld hw
      obtain ⟨o, m, ea, eb, hle, e⟩ := layout_node h i (hl i List.mem_cons_self).1 (hl i List.mem_cons_self).2
      have hi := hl i List.mem_cons_self
      have hlen := h.len
      rw [patchDofs_cons, e, List.length_append, List.length_range'] at hw
      rw [injectNodalLoopChk, injectNodalLoop, if_neg (by omega), ea, eb]
      simp only [Option.bind_eq_bind, Option.bind_some]
      have ihl := ih (fun j hj => hl j (List.mem_cons_of_mem _ hj))
      by_cases hm : m = 0
      · subst hm
        rw [if_pos (by omega), if_pos (by omega)]
        exact ihl g hg w ld (by omega)
      · rw [if_neg (by omega), if_neg (by omega), if_neg (by omega), if_neg (by omega)]
        rw [show (o : Int) + m + 1 - 1 - ((o : Int) + 1 - 1) = (m : Int) by omega, show (o : Int) + 1 - 1 = o by omega]
        rw [slice0_nat w ld m (by omega)]
        simp only [Option.bind_some]
        have el : ((w.drop ld).take m).length = m := by simp; omega
        rw [copy_scatter g _ o (by rw [el]; omega)]
        simp only [Option.bind_some]
        have := ihl (scatter (List.range' o ((w.drop ld).take m).length) ((w.drop ld).take m) g) (by rw [scatter_length]; exact hg) w (ld + m) (by omega)
        rw [show (((ld + m : Nat) : Int)) = (ld : Int) + m by push_cast; rfl] at this
        rw [this]
  have e := injectNodalLoop_spec h g hg nodes hl [] v [] hv
  simp only [List.nil_append, List.append_nil, List.length_nil] at e
  have e2 := key nodes hl g hg v 0 (by omega)
  rw [e] at e2
  refine ⟨_, e2, scatter_isScatter _ _ _ hv fun d hd => ?_⟩
  obtain ⟨i, hi, hdi⟩ := (patchDofs_mem _ _ _).mp hd
  have := layout_node_dofs h i (hl i hi).1 (hl i hi).2 d hdi
  omega

/-- The checked injection reports a node below 1 or above `n+1`, and a patch vector or a global vector that is too short. -/
theorem C22_inject_checked_rejects {madof : List Int} {n ndof : Nat} (h : DofLayout madof n ndof) (g : List α) (hg : ndof ≤ g.length)
    (i : Int) (nodes : List Int) (v : List α) (ld : Nat) :
    (i < 1 ∨ (n : Int) + 1 < i → injectNodalLoopChk v madof (i :: nodes) ld g = some (false, g)) ∧
    (1 ≤ i → i ≤ (n : Int) → nodeDofs madof i ≠ [] → v.length < ld + (nodeDofs madof i).length →
      injectNodalLoopChk v madof (i :: nodes) ld g = some (false, g)) := by
  have hlen := h.len
  constructor
  · intro hi
    rw [injectNodalLoopChk, if_pos (by omega)]
  · intro h1 h2 h3 h4
    obtain ⟨o, m, ea, eb, hle, e⟩ := layout_node h i h1 h2
    rw [e, List.length_range'] at h4
    have hm : m ≠ 0 := by
      rintro rfl
      rw [e] at h3; simp at h3
    rw [injectNodalLoopChk, if_neg (by omega), ea, eb]
    simp only [Option.bind_eq_bind, Option.bind_some]
    rw [if_neg (by omega), if_pos (by omega)]

/-- A global vector that ends before the last DOF of a node is reported by both checked transfers. -/
theorem C22_checked_short {madof : List Int} {n ndof : Nat} (h : DofLayout madof n ndof) (g v : List α) (i : Int) (nodes : List Int)
    (h1 : 1 ≤ i) (h2 : i ≤ (n : Int)) (d : Nat) (hd : d ∈ nodeDofs madof i) (hs : g.length ≤ d) (ld : Nat)
    (v0 : List α) (ngnod : Int) (hn : ngnod ≤ 0 ∨ i ≤ ngnod) :
    extractNodalLoopChk g madof ngnod (i :: nodes) v0 = some (false, v0) ∧
    injectNodalLoopChk v madof (i :: nodes) ld g = some (false, g) := by
  have hlen := h.len
  obtain ⟨o, m, ea, eb, hle, e⟩ := layout_node h i h1 h2
  rw [e, List.mem_range'_1] at hd
  constructor
  · rw [extractNodalLoopChk, if_neg (by omega), ea, eb]
    simp only [Option.bind_eq_bind, Option.bind_some]
    rw [if_neg (by omega), if_pos (by omega)]
  · rw [injectNodalLoopChk, if_neg (by omega), ea, eb]
    simp only [Option.bind_eq_bind, Option.bind_some]
    rw [if_neg (by omega)]
    split
    · rfl
    · rw [if_pos (by omega)]

/-- The node type of the nodes of basis 1, 2, 3, 4: `D`, `P`, `Q`, `R`. -/
def basisType : Nat → Char
  | 1 => 'D'
  | 2 => 'P'
  | 3 => 'Q'
  | _ => 'R'

/-- The selected nodes are those with the type of the basis, in their order; with basis 0 all nodes are selected. -/
theorem C22_select_types (nodes : List (Int × Char)) (basis : Nat) (hb : basis ≤ 4) :
    selectNodes (nodes.map Prod.fst) (nodes.map Prod.snd) basis =
      if basis = 0 then nodes.map Prod.fst else (nodes.filter fun p => p.2 == basisType basis).map Prod.fst := by
  have hz : (nodes.map Prod.fst).zip (nodes.map Prod.snd) = nodes := by
    induction nodes with
    | nil => rfl
    | cons a l ih => simp [ih]
  unfold selectNodes
  rw [hz]
  match basis with
  | 0 => rfl
  | 1 => rfl
  | 2 => rfl
  | 3 => rfl
  | 4 => rfl
  | b+5 => omega

/-- With Lagrange multiplier nodes at the end of the patch, extraction returns the values of the nodes in front of the first of them. -/
theorem C22_extract_node_lm (real lag : List Int) (nf : Nat) (g : List α) (nndof0 : Nat) (basis : Int) (N : Nat) (lms : List Nat)
    (hl : ∀ i ∈ real, 1 ≤ i ∧ i ≤ (N : Int)) (hg : (if nndof0 = 0 then nf else nndof0) * N ≤ g.length) :
    ∃ v, extractNodeVec (real ++ lag) [] ((real.length + 1) :: lms) nf g nndof0 basis = some v ∧
      IsGather (real.flatMap (uniformDofs (if nndof0 = 0 then nf else nndof0))) g v := by
  unfold extractNodeVec nonLMnodes
  dsimp only
  rw [Nat.add_sub_cancel]
  have e : ∀ c, (List.range real.length).map (fun i => getNodeID (real ++ lag) [] (i+1) c) = real := by
    intro c
    apply List.ext_getElem
    · simp
    · intro k h1 h2
      simp [getNodeID, List.getD_eq_getElem?_getD]
      rw [if_neg (by omega), List.getElem?_append_left h2, List.getElem?_eq_getElem h2, Option.getD_some]
  rw [e]
  generalize (if nndof0 = 0 then nf else nndof0) = nndof at hg ⊢
  obtain ⟨v, e1, h1⟩ := extractNodeLoop_spec g nndof N hg real hl []
  exact ⟨v, by rw [e1, List.nil_append], h1⟩

/-- Injection with Lagrange multiplier nodes acts as for the patch without them. -/
theorem C22_inject_node_lm (real lag : List Int) (nf : Nat) (v g : List α) (nndof0 : Nat) (lms : List Nat) :
    injectNodeVec (real ++ lag) ((real.length + 1) :: lms) nf v g nndof0 = injectNodeVec real [] nf v g nndof0 := by
  unfold injectNodeVec nonLMnodes
  dsimp only
  rw [Nat.add_sub_cancel, List.take_left, List.take_length, List.length_append]
  rw [if_neg (show ¬ (real.length + lag.length < real.length) by omega), if_neg (show ¬ (real.length < real.length) by omega)]

example : extractNodalLoopChk [3,4,0,1,2] [1,3,3,4,6] 4 [4,2,5] [] = some (false, [1,2]) := by decide
example : injectNodalLoopChk [1,2,3,4] [1,3,3,4,6] [4,2,1] 0 [0,0,0,0,0] = some (true, [3,4,0,1,2]) := by decide
example : selectNodes [7,3,5,4] ['D','P','D','Q'] 1 = [7,5] ∧ selectNodes [7,3,5,4] ['D','P','D','Q'] 3 = [4] := by decide
example : extractNodeVec [3,1,4] [] [3] 2 [1,2,3,4,5,6] 0 0 = some [5,6,1,2] := by decide

end IFEM.Props
