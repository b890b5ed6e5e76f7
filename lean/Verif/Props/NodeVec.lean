import Verif.Lemmas.NodeVec
import Mathlib.Data.Rat.Defs
/-!
# C22: extraction and injection of patch-level vectors
-/
namespace IFEM.Props
open IFEM IFEM.Spec IFEM.Lem

variable {α : Type}

/-! ## Nodal vectors with a DOF layout -/

/-- Extraction returns the values of the DOFs of the nodes of the patch, node by node, and stays inside the arrays. -/
theorem C22_extract_nodal {madof : List Int} {n ndof : Nat} (h : DofLayout madof n ndof) (mlgn : List Int) (nnod : Nat)
    (hl : ∀ i ∈ mlgn, 1 ≤ i ∧ i ≤ (n : Int)) (hnn : nnod ≤ mlgn.length) (g : List α) (hg : ndof ≤ g.length) (ngnod : Int) (h0 : ngnod ≠ 0) :
    ∃ v, extractNodalVec mlgn nnod g madof ngnod = some (true, v) ∧
      IsGather (patchDofs madof (if ngnod = -2 then mlgn.take nnod else mlgn)) g v := by
  unfold extractNodalVec
  rw [if_neg h0, if_neg (by omega)]
  obtain ⟨v, e, hv⟩ := extractNodalLoop_spec h g hg (if ngnod = -2 then mlgn.take nnod else mlgn)
    (fun i hi => hl i (by split at hi; exact List.mem_of_mem_take hi; exact hi)) []
  rw [List.nil_append] at e
  exact ⟨v, by rw [e], hv⟩

/-- Injection stores the values at the DOFs of the nodes and changes nothing else. -/
theorem C22_inject_nodal {madof : List Int} {n ndof : Nat} (h : DofLayout madof n ndof) (nodes : List Int)
    (hl : ∀ i ∈ nodes, 1 ≤ i ∧ i ≤ (n : Int)) (v g : List α) (hg : ndof ≤ g.length) (hv : v.length = (patchDofs madof nodes).length) :
    ∃ g', injectNodalVec nodes v g madof = some (true, g') ∧ IsScatter (patchDofs madof nodes) v g g' := by
  unfold injectNodalVec
  rw [if_neg (by
    intro hc
    rw [List.isEmpty_iff] at hc
    have := h.len
    rw [hc] at this
    simp at this)]
  have e := injectNodalLoop_spec h g hg nodes hl [] v [] hv
  simp only [List.nil_append, List.append_nil, List.length_nil] at e
  rw [show ((0 : Nat) : Int) = 0 from rfl] at e
  rw [e]
  refine ⟨_, rfl, scatter_isScatter _ _ _ hv fun d hd => ?_⟩
  obtain ⟨i, hi, hdi⟩ := (patchDofs_mem _ _ _).mp hd
  have := layout_node_dofs h i (hl i hi).1 (hl i hi).2 d hdi
  omega

/-- What was injected for distinct nodes is extracted again. -/
theorem C22_nodal_extract_inject {madof : List Int} {n ndof : Nat} (h : DofLayout madof n ndof) (mlgn : List Int)
    (hl : ∀ i ∈ mlgn, 1 ≤ i ∧ i ≤ (n : Int)) (hd : mlgn.Nodup) (v g : List α) (hg : ndof ≤ g.length)
    (hv : v.length = (patchDofs madof mlgn).length) :
    ∃ g', injectNodalVec mlgn v g madof = some (true, g') ∧ extractNodalVec mlgn mlgn.length g' madof (-1) = some (true, v) := by
  obtain ⟨g', e1, hs⟩ := C22_inject_nodal h mlgn hl v g hg hv
  obtain ⟨w, e2, hw⟩ := C22_extract_nodal h mlgn mlgn.length hl (Nat.le_refl _) g' (by rw [hs.1]; exact hg) (-1) (by decide)
  rw [if_neg (by decide)] at hw
  refine ⟨g', e1, ?_⟩
  rw [e2, gather_scatter _ v g g' w (patchDofs_nodup h mlgn hl hd) hv hs hw]

/-- Values extracted from one vector and injected into another are copied at the DOFs of the patch, the other DOFs keep their values;
nodes may occur several times. -/
theorem C22_nodal_inject_extract {madof : List Int} {n ndof : Nat} (h : DofLayout madof n ndof) (mlgn : List Int)
    (hl : ∀ i ∈ mlgn, 1 ≤ i ∧ i ≤ (n : Int)) (f g : List α) (hf : ndof ≤ f.length) (hg : ndof ≤ g.length) :
    ∃ v g', extractNodalVec mlgn mlgn.length f madof (-1) = some (true, v) ∧ injectNodalVec mlgn v g madof = some (true, g') ∧
      g'.length = g.length ∧ ∀ d : Nat, (d ∈ patchDofs madof mlgn → g'[d]? = f[d]?) ∧ (d ∉ patchDofs madof mlgn → g'[d]? = g[d]?) := by
  obtain ⟨v, e1, hv⟩ := C22_extract_nodal h mlgn mlgn.length hl (Nat.le_refl _) f hf (-1) (by decide)
  rw [if_neg (by decide)] at hv
  obtain ⟨g', e2, hs⟩ := C22_inject_nodal h mlgn hl v g hg hv.1
  exact ⟨v, g', e1, e2, hs.1, scatter_gather _ v g g' f hv hs⟩

/-- Injecting what was extracted from the same vector changes nothing. -/
theorem C22_nodal_inject_extract_same {madof : List Int} {n ndof : Nat} (h : DofLayout madof n ndof) (mlgn : List Int)
    (hl : ∀ i ∈ mlgn, 1 ≤ i ∧ i ≤ (n : Int)) (g : List α) (hg : ndof ≤ g.length) :
    ∃ v, extractNodalVec mlgn mlgn.length g madof (-1) = some (true, v) ∧ injectNodalVec mlgn v g madof = some (true, g) := by
  obtain ⟨v, g', e1, e2, _, h3⟩ := C22_nodal_inject_extract h mlgn hl g g hg hg
  have : g' = g := by
    apply List.ext_getElem?
    intro d
    by_cases hm : d ∈ patchDofs madof mlgn
    · exact (h3 d).1 hm
    · exact (h3 d).2 hm
  exact ⟨v, e1, this ▸ e2⟩

/-- The nodes of the selected basis are nodes of the patch of that type, in their order. -/
theorem C22_select (mlgn : List Int) (types : List Char) (basis : Nat) :
    (selectNodes mlgn types basis).Sublist mlgn := by
  unfold selectNodes
  split
  · exact List.Sublist.refl _
  · exact (List.Sublist.map _ List.filter_sublist).trans (by
      induction mlgn generalizing types with
      | nil => simp
      | cons i l ih =>
        cases types with
        | nil => simp
        | cons c cs =>
          rw [List.zip_cons_cons, List.map_cons]
          exact (ih cs).cons_cons i)

/-- With index checks, extraction with the correct number of nodes never leaves an array, whatever the node numbers and the layout. -/
theorem C22_extract_checked (madof : List Int) (g : List α) (nodes : List Int) (v0 : List α) (hm : 1 < madof.length) :
    extractNodalLoopChk g madof ((madof.length : Int) - 1) nodes v0 ≠ none := by
  induction nodes generalizing v0 with
  | nil => simp [extractNodalLoopChk]
  | cons i l ih =>
    rw [extractNodalLoopChk]
    split
    · simp
    · rename_i hc
      have h1 : 1 ≤ i := by omega
      have h2 : i ≤ (madof.length : Int) - 1 := by omega
      have ea : at0? madof (i-1) = some (madof[(i-1).toNat]'(by omega)) := by
        unfold at0?; rw [if_pos (by omega), List.getElem?_eq_getElem]
      have eb : at0? madof i = some (madof[i.toNat]'(by omega)) := by
        unfold at0?; rw [if_pos (by omega), List.getElem?_eq_getElem]
      rw [ea, eb]
      simp only [Option.bind_eq_bind, Option.bind_some]
      split
      · exact ih _
      · split
        · simp
        · rename_i hd
          have : slice0? g (madof[(i-1).toNat]'(by omega) - 1) (madof[i.toNat]'(by omega) - 1) =
              some ((g.drop (madof[(i-1).toNat]'(by omega) - 1).toNat).take
                (madof[i.toNat]'(by omega) - 1 - (madof[(i-1).toNat]'(by omega) - 1)).toNat) := by
            unfold slice0?
            rw [if_pos (by omega)]
          rw [this]
          simp only [Option.bind_some]
          exact ih _

/-- Finding F45: the index check of the injection compares with the size of the layout array instead of the number of nodes, so
node `n+1` passes it and the read of the layout leaves the array. -/
theorem C22_inject_check_off_by_one :
    ∃ (madof nodes : List Int) (v g : List Rat), DofLayout madof 2 4 ∧ g.length = 4 ∧
      injectNodalLoopChk v madof nodes 0 g = none := by
  refine ⟨[1,3,5], [3], [7,8], [1,2,3,4], ?_, rfl, rfl⟩
  refine ⟨rfl, rfl, rfl, ?_⟩
  intro i a b ha hb
  match i with
  | 0 => simp at ha hb; omega
  | 1 => simp at ha hb; omega
  | i+2 => simp at hb

/-! ## Vectors with a fixed number of values per node -/

/-- Extraction with `nndof` values per node (0 means the number of the patch). -/
theorem C22_extract_node (mlgn : List Int) (nf : Nat) (g : List α) (nndof0 : Nat) (basis : Int) (N : Nat)
    (hl : ∀ i ∈ mlgn, 1 ≤ i ∧ i ≤ (N : Int)) (hg : (if nndof0 = 0 then nf else nndof0) * N ≤ g.length) :
    ∃ v, extractNodeVec mlgn [] [] nf g nndof0 basis = some v ∧
      IsGather (mlgn.flatMap (uniformDofs (if nndof0 = 0 then nf else nndof0))) g v := by
  unfold extractNodeVec nonLMnodes
  have e : (List.range mlgn.length).map (fun i => getNodeID mlgn [] (i+1)
      (decide ((if nndof0 = 0 then nf else nndof0) = 1) || decide (basis < 0))) = mlgn := by
    apply List.ext_getElem
    · simp
    · intro k h1 h2
      simp [getNodeID, List.getD_eq_getElem?_getD]
      rw [if_neg (by omega), List.getElem?_eq_getElem h2, Option.getD_some]
  dsimp only
  rw [e]
  generalize (if nndof0 = 0 then nf else nndof0) = nndof at hg ⊢
  obtain ⟨v, e1, h1⟩ := extractNodeLoop_spec g nndof N hg mlgn hl []
  exact ⟨v, by rw [e1, List.nil_append], h1⟩

/-- Injection with `nndof` values per node; a patch vector of the wrong size is refused and nothing is changed. -/
theorem C22_inject_node (mlgn : List Int) (nf : Nat) (v g : List α) (nndof0 : Nat) (N : Nat)
    (hp : 0 < (if nndof0 = 0 then nf else nndof0))
    (hl : ∀ i ∈ mlgn, 1 ≤ i ∧ i ≤ (N : Int)) (hg : (if nndof0 = 0 then nf else nndof0) * N ≤ g.length) :
    (v.length ≠ mlgn.length * (if nndof0 = 0 then nf else nndof0) → injectNodeVec mlgn [] nf v g nndof0 = some (false, g)) ∧
    (v.length = mlgn.length * (if nndof0 = 0 then nf else nndof0) →
      ∃ g', injectNodeVec mlgn [] nf v g nndof0 = some (true, g') ∧
        IsScatter (mlgn.flatMap (uniformDofs (if nndof0 = 0 then nf else nndof0))) v g g') := by
  unfold injectNodeVec nonLMnodes
  dsimp only
  generalize (if nndof0 = 0 then nf else nndof0) = nndof at hg hp ⊢
  refine ⟨fun hv => by rw [if_pos hv], fun hv => ?_⟩
  rw [if_neg (by simpa using hv), if_neg (by omega), List.take_length]
  have e := injectNodeLoop_spec g nndof N hp hg mlgn hl v hv
  rw [e]
  refine ⟨_, rfl, scatter_isScatter _ _ _ ?_ fun d hd => ?_⟩
  · rw [hv, List.length_flatMap]
    have : ∀ l : List Int, (l.map fun a => (uniformDofs nndof a).length).sum = l.length * nndof := by
      intro l
      induction l with
      | nil => simp
      | cons a l ih => rw [List.map_cons, List.sum_cons, ih, List.length_cons, Nat.add_mul, Nat.one_mul, Nat.add_comm]; simp [uniformDofs]
    rw [this]
  · obtain ⟨i, hi, hdi⟩ := List.mem_flatMap.mp hd
    have := (uniform_slice g nndof N hg i (hl i hi).1 (hl i hi).2).2
    unfold uniformDofs at hdi
    rw [List.mem_range'_1] at hdi
    omega

/-- Round trip for distinct nodes with `nndof` values each. -/
theorem C22_node_extract_inject (mlgn : List Int) (nf : Nat) (v g : List α) (nndof0 : Nat) (basis : Int) (N : Nat)
    (hp : 0 < (if nndof0 = 0 then nf else nndof0)) (hd : mlgn.Nodup)
    (hl : ∀ i ∈ mlgn, 1 ≤ i ∧ i ≤ (N : Int)) (hg : (if nndof0 = 0 then nf else nndof0) * N ≤ g.length)
    (hv : v.length = mlgn.length * (if nndof0 = 0 then nf else nndof0)) :
    ∃ g', injectNodeVec mlgn [] nf v g nndof0 = some (true, g') ∧ extractNodeVec mlgn [] [] nf g' nndof0 basis = some v := by
  obtain ⟨g', e1, hs⟩ := (C22_inject_node mlgn nf v g nndof0 N hp hl hg).2 hv
  obtain ⟨w, e2, hw⟩ := C22_extract_node mlgn nf g' nndof0 basis N hl (by rw [hs.1]; exact hg)
  refine ⟨g', e1, ?_⟩
  rw [e2, gather_scatter _ v g g' w (uniform_nodup _ mlgn (fun i hi => (hl i hi).1) hd) ?_ hs hw]
  rw [← hw.1]
  by_contra hc
  have : IsGather _ g' w := hw
  have hlen : w.length = (mlgn.flatMap (uniformDofs (if nndof0 = 0 then nf else nndof0))).length := hw.1
  apply hc
  rw [hlen, hv, List.length_flatMap]
  generalize (if nndof0 = 0 then nf else nndof0) = nndof
  clear * -
  induction mlgn with
  | nil => simp
  | cons a l ih => rw [List.map_cons, List.sum_cons, ← ih, List.length_cons, Nat.add_mul, Nat.one_mul, Nat.add_comm]; simp [uniformDofs]

/-- With Lagrange multiplier nodes, only the nodes in front of the first of them take part in both directions, and nodes whose values are
not all inside the global vector are skipped by the injection. -/
theorem C22_inject_skips (mlgn : List Int) (nf : Nat) (v g g' : List α) (lms : List Nat) (nndof0 : Nat)
    (he : injectNodeVec mlgn lms nf v g nndof0 = some (true, g')) :
    g'.length = g.length ∧ ∀ d : Nat, (∀ i ∈ mlgn.take (nonLMnodes mlgn lms), 1 ≤ i → d ∉ uniformDofs (if nndof0 = 0 then nf else nndof0) i) →
      g'[d]? = g[d]? := by
  unfold injectNodeVec at he
  dsimp only at he
  generalize (if nndof0 = 0 then nf else nndof0) = nndof at he ⊢
  split at he
  · simp at he
  · split at he
    · simp at he
    · generalize mlgn.take (nonLMnodes mlgn lms) = ids at he ⊢
      have key : ∀ (ids : List Int) (v g g' : List α), injectNodeLoop nndof ids v g = some g' → g'.length = g.length ∧
          ∀ d : Nat, (∀ i ∈ ids, 1 ≤ i → d ∉ uniformDofs nndof i) → g'[d]? = g[d]? := by
        intro ids
        induction ids with
        | nil => intro v g g' h; simp [injectNodeLoop] at h; subst h; exact ⟨rfl, fun _ _ => rfl⟩
        | cons i l ih =>
          intro v g g' h
          rw [injectNodeLoop] at h
          split at h
          · rename_i hc
            cases hs : slice0? v 0 nndof with
            | none => rw [hs] at h; simp at h
            | some s =>
              rw [hs] at h
              simp only [Option.bind_eq_bind, Option.bind_some] at h
              have hpos : 1 ≤ i := by
                by_contra hn
                have : (nndof : Int) * i ≤ 0 := Int.mul_nonpos_of_nonneg_of_nonpos (by omega) (by omega)
                omega
              obtain ⟨k, rfl⟩ : ∃ k : Nat, i = (k : Int) + 1 := ⟨(i-1).toNat, by omega⟩
              have e1 : (nndof : Int) * ((k : Int) + 1) - nndof = ((nndof * k : Nat) : Int) := by push_cast; rw [Int.mul_add]; omega
              have hsl : s.length = nndof := by
                unfold slice0? at hs
                split at hs
                · simp at hs; subst hs; simp; omega
                · simp at hs
              have hle : nndof * k + nndof ≤ g.length := by
                have : (nndof : Int) * ((k : Int) + 1) = ((nndof * k : Nat) : Int) + nndof := by push_cast; rw [Int.mul_add]; omega
                omega
              rw [e1, copy_scatter g s (nndof*k) (by rw [hsl]; exact hle)] at h
              simp only [Option.bind_some] at h
              obtain ⟨h1, h2⟩ := ih _ _ _ h
              rw [scatter_length] at h1
              refine ⟨h1, fun d hd => ?_⟩
              rw [h2 d (fun j hj => hd j (List.mem_cons_of_mem _ hj)), scatter_not_mem]
              have := hd _ List.mem_cons_self hpos
              unfold uniformDofs at this
              rw [show ((k : Int) + 1).toNat - 1 = k by omega] at this
              rw [hsl]; exact this
          · obtain ⟨h1, h2⟩ := ih _ _ _ h
            exact ⟨h1, fun d hd => h2 d fun j hj => hd j (List.mem_cons_of_mem _ hj)⟩
      cases hl : injectNodeLoop nndof ids v g with
      | none => rw [hl] at he; simp at he
      | some r =>
        rw [hl] at he
        simp only [Option.some.injEq, Prod.mk.injEq, true_and] at he
        subst he
        exact key ids v g r hl

/-! ## Mixed bases -/

/-- Extraction for one basis of a mixed patch. -/
theorem C22_extract_mx_one {nfx nb first : List Nat} (g : List α) (h : MxFits nfx nb first g.length) (b : Nat) (hb : b < nb.length) :
    ∃ v, extractNodeVecMx nfx nb (first.map fun k : Nat => (k : Int)) g ((b : Int) + 1) = some v ∧ IsGather (basisDofs nfx nb first b) g v := by
  have hc : ¬ ((b : Int) + 1 < 1 ∨ (b : Int) + 1 > nfx.length) := by rw [← h.bases]; omega
  obtain ⟨v, e, hv⟩ := extractMx_spec g h b 1 (by omega) []
  refine ⟨v, ?_, by simpa using hv⟩
  unfold extractNodeVecMx mxBases mxOffset
  rw [if_neg hc, if_neg hc, show ((b : Int) + 1 - 1).toNat = b by omega]
  rw [List.range'_one] at e
  rw [e]
  simp

/-- Extraction for all bases of a mixed patch, one after the other. -/
theorem C22_extract_mx_all {nfx nb first : List Nat} (g : List α) (h : MxFits nfx nb first g.length) (basis : Int)
    (hb : basis < 1 ∨ basis > nb.length) :
    ∃ v, extractNodeVecMx nfx nb (first.map fun k : Nat => (k : Int)) g basis = some v ∧
      IsGather ((List.range nb.length).flatMap (basisDofs nfx nb first)) g v := by
  rw [h.bases] at hb ⊢
  obtain ⟨v, e, hv⟩ := extractMx_spec g h 0 nfx.length (by rw [h.bases]; omega) []
  refine ⟨v, ?_, by rwa [List.range_eq_range']⟩
  unfold extractNodeVecMx mxBases mxOffset
  rw [if_pos hb, if_pos hb, List.range_eq_range']
  rw [List.take_zero, List.sum_nil] at e
  rw [e]
  simp

/-- Injection for one basis of a mixed patch. -/
theorem C22_inject_mx_one {nfx nb first : List Nat} (v g : List α) (h : MxFits nfx nb first g.length) (b : Nat) (hb : b < nb.length)
    (hv : v.length = (basisDofs nfx nb first b).length) :
    ∃ g', injectNodeVecMx nfx nb (first.map fun k : Nat => (k : Int)) v g ((b : Int) + 1) = some g' ∧
      IsScatter (basisDofs nfx nb first b) v g g' := by
  have hc : ¬ ((b : Int) + 1 < 1 ∨ (b : Int) + 1 > nfx.length) := by rw [← h.bases]; omega
  have en : nb[b]? = some (nb.getD b 0) := by
    rw [List.getD_eq_getElem?_getD, List.getElem?_eq_getElem (by omega)]; rfl
  have ef : nfx[b]? = some (nfx.getD b 0) := by
    rw [List.getD_eq_getElem?_getD, List.getElem?_eq_getElem (by rw [← h.bases]; omega)]; rfl
  have el : (basisDofs nfx nb first b).length = nb.getD b 0 * nfx.getD b 0 := by
    unfold basisDofs
    rw [List.length_flatMap]
    simp
  obtain ⟨e, _⟩ := injectMxNodes_spec g h b hb v _ (Nat.le_refl _) (by rw [hv, el])
  refine ⟨scatter (basisDofs nfx nb first b) v g, ?_, scatter_isScatter _ _ _ hv fun d hd => ?_⟩
  · unfold injectNodeVecMx mxBases mxOffset
    rw [if_neg hc, if_neg hc, show ((b : Int) + 1 - 1).toNat = b by omega]
    simp only [Option.bind_eq_bind, List.foldlM_cons, List.foldlM_nil, en, ef, Option.bind_some]
    rw [e]
    simp only [Option.bind_some, Option.map_some]
    rw [List.take_of_length_le (l := v) (by rw [hv, el])]
    rfl
  · unfold basisDofs at hd
    obtain ⟨i, hi, hdi⟩ := List.mem_flatMap.mp hd
    have := h.inside b i hb (by simpa using hi)
    rw [List.mem_range'_1] at hdi
    omega

/-- Round trip for one basis whose nodes do not share DOFs. -/
theorem C22_mx_extract_inject {nfx nb first : List Nat} (v g : List α) (h : MxFits nfx nb first g.length) (b : Nat) (hb : b < nb.length)
    (hv : v.length = (basisDofs nfx nb first b).length) (hd : (basisDofs nfx nb first b).Nodup) :
    ∃ g', injectNodeVecMx nfx nb (first.map fun k : Nat => (k : Int)) v g ((b : Int) + 1) = some g' ∧
      extractNodeVecMx nfx nb (first.map fun k : Nat => (k : Int)) g' ((b : Int) + 1) = some v := by
  obtain ⟨g', e1, hs⟩ := C22_inject_mx_one v g h b hb hv
  obtain ⟨w, e2, hw⟩ := C22_extract_mx_one g' (by rw [hs.1]; exact h) b hb
  exact ⟨g', e1, by rw [e2, gather_scatter _ v g g' w hd hv hs hw]⟩

/-- Finding F47: injection for all bases does not advance the node offset.  Here both bases have one node with one DOF; the values 10 and 20
are injected and the extraction returns 20 and 0. -/
theorem C22_inject_mx_all_wrong :
    ∃ (nfx nb first : List Nat) (v g g' : List Rat), MxFits nfx nb first g.length ∧
      ((List.range nb.length).flatMap (basisDofs nfx nb first)).Nodup ∧
      v.length = ((List.range nb.length).flatMap (basisDofs nfx nb first)).length ∧
      injectNodeVecMx nfx nb (first.map fun k : Nat => (k : Int)) v g 0 = some g' ∧
      extractNodeVecMx nfx nb (first.map fun k : Nat => (k : Int)) g' 0 = some [20, 0] ∧ v = [10, 20] := by
  refine ⟨[1,1], [1,1], [0,1], [10,20], [0,0], [20,0], ⟨rfl, by decide, ?_⟩, by decide, rfl, rfl, rfl, rfl⟩
  intro b i hb hi
  match b with
  | 0 => simp at hi; subst hi; decide
  | 1 => simp at hi; subst hi; decide
  | b+2 => simp at hb

/-! ## Element results -/

/-- The element results of a patch: the entry of the global vector with the external number of each element that has a positive number
and more than one node, or zero if the global vector is too short. -/
theorem C22_elm_external (elms : List (Int × Nat)) (g : List α) (zero : α) :
    extractElmRes elms g zero 0 = some ((elms.filter fun e => decide (e.1 > 0 ∧ e.2 > 1)).map fun e => g.getD (e.1.toNat - 1) zero) := by
  unfold extractElmRes
  have key : ∀ (j : Nat) (v : List α), extractElmLoop g zero 0 elms j v =
      some (v ++ (elms.filter fun e => decide (e.1 > 0 ∧ e.2 > 1)).map fun e => g.getD (e.1.toNat - 1) zero) := by
    induction elms with
    | nil => intro j v; simp [extractElmLoop]
    | cons e l ih =>
      intro j v
      obtain ⟨m, c⟩ := e
      rw [extractElmLoop]
      by_cases hc : m > 0 ∧ c > 1
      · rw [if_pos hc, List.filter_cons_of_pos (by simpa using hc), List.map_cons]
        dsimp only
        rw [if_neg (show ¬ ((0:Nat) ≠ 0) by simp)]
        by_cases hi : m ≤ g.length
        · rw [if_pos hi]
          have : at1? g m = some (g.getD (m.toNat - 1) zero) := by
            unfold at1? at0?
            rw [if_pos (by omega), show (m-1).toNat = m.toNat - 1 by omega, List.getD_eq_getElem?_getD, List.getElem?_eq_getElem (by omega)]
            rfl
          rw [this]
          simp only [Option.bind_eq_bind, Option.bind_some]
          rw [ih]
          simp
        · rw [if_neg hi, ih, List.getD_eq_getElem?_getD, List.getElem?_eq_none (by omega)]
          simp
      · rw [if_neg hc, ih, List.filter_cons_of_neg (by simpa using hc)]
  rw [key, List.nil_append]

/-- With an internal first index, the active elements take consecutive entries. -/
theorem C22_elm_internal (elms : List (Int × Nat)) (g : List α) (zero : α) (first : Nat) (hf : 0 < first) :
    extractElmRes elms g zero first = some ((List.range (elms.filter fun e => decide (e.1 > 0 ∧ e.2 > 1)).length).map fun k : Nat => g.getD (first - 1 + k) zero) := by
  unfold extractElmRes
  have key : ∀ (k : Nat) (v : List α), extractElmLoop g zero first elms (first + k) v =
      some (v ++ (List.range' k (elms.filter fun e => decide (e.1 > 0 ∧ e.2 > 1)).length).map fun k : Nat => g.getD (first - 1 + k) zero) := by
    induction elms with
    | nil => intro j v; simp [extractElmLoop]
    | cons e l ih =>
      intro k v
      obtain ⟨m, c⟩ := e
      rw [extractElmLoop]
      by_cases hc : m > 0 ∧ c > 1
      · rw [if_pos hc, List.filter_cons_of_pos (by simpa using hc), List.length_cons, List.range'_succ, List.map_cons]
        dsimp only
        rw [if_pos (show first ≠ 0 by omega)]
        by_cases hi : ((first + k : Nat) : Int) ≤ g.length
        · rw [if_pos hi]
          have : at1? g ((first + k : Nat) : Int) = some (g.getD (first - 1 + k) zero) := by
            unfold at1? at0?
            rw [if_pos (by omega), show (((first + k : Nat) : Int)-1).toNat = first - 1 + k by omega, List.getD_eq_getElem?_getD, List.getElem?_eq_getElem (by omega)]
            rfl
          rw [this]
          simp only [Option.bind_eq_bind, Option.bind_some]
          rw [Nat.add_assoc, ih]
          simp
        · rw [if_neg hi, Nat.add_assoc, ih, List.getD_eq_getElem?_getD, List.getElem?_eq_none (by omega)]
          simp
      · rw [if_neg hc, ih, List.filter_cons_of_neg (by simpa using hc)]
  have := key 0 []
  rw [Nat.add_zero, List.nil_append] at this
  rw [this, List.range_eq_range']

/-! ## Concrete cases -/

/-- A layout with a DOF-less node: nodes with 2, 0, 1 and 2 DOFs. -/
example : DofLayout [1,3,3,4,6] 4 5 := by
  refine ⟨rfl, rfl, rfl, ?_⟩
  intro i a b ha hb
  match i with
  | 0 => simp at ha hb; omega
  | 1 => simp at ha hb; omega
  | 2 => simp at ha hb; omega
  | 3 => simp at ha hb; omega
  | i+4 => simp at hb

example : injectNodalVec [4,2,1] [1,2,3,4] [0,0,0,0,0] [1,3,3,4,6] = some (true, [3,4,0,1,2]) := by decide
example : extractNodalVec [4,2,1] 3 [3,4,0,1,2] [1,3,3,4,6] (-1) = some (true, [1,2,3,4]) := by decide
example : injectNodeVec [3,1] [] 2 [1,2,3,4] [0,0,0,0,0,0] 0 = some (true, [3,4,0,0,1,2]) := by decide
example : MxFits [2,1] [2,1] [0,3,2] 5 := by
  refine ⟨rfl, by decide, ?_⟩
  intro b i hb hi
  match b with
  | 0 => match i with
    | 0 => simp
    | 1 => simp
    | i+2 => simp at hi
  | 1 => match i with
    | 0 => simp
    | i+1 => simp at hi
  | b+2 => simp at hb

end IFEM.Props
