import Verif.Model.Norms
import Verif.Spec.Norms
import Mathlib.Tactic.Common
import Mathlib.Tactic.Linarith
import Mathlib.Tactic.Ring
import Mathlib.Tactic.NormNum
import Mathlib.Data.List.GetD
import Mathlib.Algebra.BigOperators.Group.List.Basic
import Mathlib.Algebra.Order.BigOperators.Group.List

/-!
# C69: the norms of a solution

The global norms are the final operation on the sums of the contributions of all elements, the element norms those of the contributions of one element.
-/
namespace IFEM.Norms

theorem addOne_in (pre : List (List ℝ)) (dn : List ℝ) (r : ℝ) (rs : List ℝ) (post : List (List ℝ)) (x : ℝ) :
    addOne (pre ++ (dn ++ r :: rs) :: post, pre.length, dn.length) x = some (pre ++ ((dn ++ [r+x]) ++ rs) :: post, pre.length, (dn ++ [r+x]).length) := by
  have h : ¬ (dn.length ≥ (dn ++ r :: rs).length) := by simp
  unfold addOne
  simp [List.getD_append_right]

theorem addOne_next (pre : List (List ℝ)) (dn : List ℝ) (r : ℝ) (rs : List ℝ) (post : List (List ℝ)) (x : ℝ) :
    addOne (pre ++ (dn ++ []) :: (r :: rs) :: post, pre.length, dn.length) x = some ((pre ++ [dn]) ++ ([r+x] ++ rs) :: post, (pre ++ [dn]).length, [r+x].length) := by
  unfold addOne
  simp

theorem addOne_loop (el : List ℝ) : ∀ (pre : List (List ℝ)) (dn rest : List ℝ) (post : List (List ℝ)), (∀ g ∈ post, g ≠ []) → el.length = rest.length + post.flatten.length →
    ∃ s, el.foldlM addOne (pre ++ (dn ++ rest) :: post, pre.length, dn.length) = some s ∧ s.1.map List.length = (pre ++ (dn ++ rest) :: post).map List.length ∧
      s.1.flatten = pre.flatten ++ dn ++ List.zipWith (· + ·) (rest ++ post.flatten) el := by
  induction el with
  | nil =>
    intro pre dn rest post hp hl
    have hr : rest = [] := List.length_eq_zero_iff.1 (by simp only [List.length_nil] at hl; omega)
    have hq : post.flatten = [] := List.length_eq_zero_iff.1 (by simp only [List.length_nil] at hl; omega)
    refine ⟨_, rfl, rfl, ?_⟩
    subst hr
    simp [hq]
  | cons x xs ih =>
    intro pre dn rest post hp hl
    rw [List.foldlM_cons]
    cases rest with
    | cons r rs =>
      rw [addOne_in]
      obtain ⟨s, h1, h2, h3⟩ := ih pre (dn ++ [r+x]) rs post hp (by simp only [List.length_cons] at hl; omega)
      exact ⟨s, h1, by rw [h2]; simp, by rw [h3]; simp⟩
    | nil =>
      cases post with
      | nil => simp at hl
      | cons h post =>
        cases h with
        | nil => exact absurd rfl (hp [] (by simp))
        | cons r rs =>
          rw [addOne_next]
          obtain ⟨s, h1, h2, h3⟩ := ih (pre ++ [dn]) [r+x] rs post (fun g hg => hp g (by simp [hg])) (by simp at hl ⊢; omega)
          exact ⟨s, h1, by rw [h2]; simp, by rw [h3]; simp⟩

/-- Each value of an element is added to the value of the same number in the non-empty groups. -/
theorem C69_assemble (op : Op) (vals : List (List ℝ)) (el : List ℝ) (hp : ∀ g ∈ vals, g ≠ []) (hl : el.length = vals.flatten.length) :
    ∃ v, assemble op vals el = some (v, el.map op.apply) ∧ v.map List.length = vals.map List.length ∧ v.flatten = List.zipWith (· + ·) vals.flatten el := by
  cases vals with
  | nil =>
    have : el = [] := List.length_eq_zero_iff.1 (by simpa using hl)
    subst this
    exact ⟨[], rfl, rfl, rfl⟩
  | cons g gs =>
    obtain ⟨s, h1, h2, h3⟩ := addOne_loop el [] [] g gs (fun q hq => hp q (by simp [hq])) (by simpa using hl)
    refine ⟨s.1, ?_, by simpa using h2, by simpa using h3⟩
    simp only [List.nil_append, List.length_nil] at h1
    unfold assemble
    rw [h1]
    rfl

theorem nonempty_of_sizes {v : List (List ℝ)} {sizes : List Nat} (h : v.map List.length = sizes) (hp : ∀ n ∈ sizes, 0 < n) : ∀ g ∈ v, g ≠ [] := by
  intro g hg he
  have := hp g.length (by rw [← h]; exact List.mem_map_of_mem hg)
  rw [he] at this
  simp at this

theorem flatten_len {v : List (List ℝ)} {sizes : List Nat} (h : v.map List.length = sizes) : v.flatten.length = sizes.sum := by rw [List.length_flatten, h]

theorem initial_len (sizes : List Nat) : (initial sizes).map List.length = sizes := by simp [initial, Function.comp_def]

theorem initial_flat (sizes : List Nat) (i : Nat) : (initial sizes).flatten.getD i 0 = 0 := by
  by_cases h : i < (initial sizes).flatten.length
  · rw [List.getD_eq_getElem _ _ h]
    have := List.getElem_mem h
    rw [List.mem_flatten] at this
    obtain ⟨l, hl, hm⟩ := this
    simp only [initial, List.mem_map] at hl
    obtain ⟨n, _, rfl⟩ := hl
    exact (List.mem_replicate.1 hm).2
  · rw [List.getD_eq_default _ _ (by omega)]

theorem getD_add (a b : List ℝ) (h : a.length = b.length) (i : Nat) : (List.zipWith (· + ·) a b).getD i 0 = a.getD i 0 + b.getD i 0 := by
  by_cases hi : i < a.length
  · rw [List.getD_eq_getElem _ _ (by simp; omega), List.getD_eq_getElem _ _ hi, List.getD_eq_getElem _ _ (by omega), List.getElem_zipWith]
  · rw [List.getD_eq_default _ _ (by simp; omega), List.getD_eq_default _ _ (by omega), List.getD_eq_default _ _ (by omega), add_zero]

theorem getD_op (op : Op) (l : List ℝ) (i : Nat) : (l.map op.apply).getD i 0 = op.apply (l.getD i 0) := by
  have h0 : op.apply 0 = 0 := by cases op <;> simp [Op.apply]
  by_cases hi : i < l.length
  · rw [List.getD_eq_getElem _ _ (by simpa using hi), List.getD_eq_getElem _ _ hi, List.getElem_map]
  · rw [List.getD_eq_default _ _ (by simp; omega), List.getD_eq_default _ _ (by omega), h0]

theorem finish_len (op : Op) (v : List (List ℝ)) : (finish op v).map List.length = v.map List.length := by simp [finish, Function.comp_def]

theorem finish_flat (op : Op) (v : List (List ℝ)) : (finish op v).flatten = v.flatten.map op.apply := by
  simp [finish, List.map_flatten]

theorem ext_len (v : List (List ℝ)) (en : ℝ) : (addBoundaryTerms v en).map List.length = v.map List.length := by
  unfold addBoundaryTerms
  split <;> simp

theorem ext_flat (v : List (List ℝ)) (en : ℝ) (sizes : List Nat) (h : v.map List.length = sizes) (i : Nat) :
    (addBoundaryTerms v en).flatten.getD i 0 = v.flatten.getD i 0 + Spec.external sizes en i := by
  subst h
  unfold addBoundaryTerms Spec.external
  split
  · next a b l gs =>
    rcases i with _ | _ | i <;> simp
  · next hn =>
    rcases v with _ | ⟨_ | ⟨a, _ | ⟨b, l⟩⟩, gs⟩
    · simp
    · simp
    · simp
    · exact absurd rfl (hn a b l gs)

/-- The loop over elements that are assembled at once. -/
theorem direct_loop (op : Op) (sizes : List Nat) (hp : ∀ n ∈ sizes, 0 < n) (cs : List Contribution) : ∀ v : List (List ℝ), v.map List.length = sizes → (∀ c ∈ cs, c.2.length = sizes.sum) →
    ∃ w, cs.foldlM (fun (v : List (List ℝ)) (c : Contribution) => (assemble op v c.2).map Prod.fst) v = some w ∧ w.map List.length = sizes ∧
      ∀ i, w.flatten.getD i 0 = v.flatten.getD i 0 + Spec.total cs i := by
  induction cs with
  | nil => intro v hv _; exact ⟨v, rfl, hv, fun i => by simp [Spec.total]⟩
  | cons c cs ih =>
    intro v hv hc
    have hcl : c.2.length = v.flatten.length := by rw [flatten_len hv]; exact hc c (by simp)
    obtain ⟨w, h1, h2, h3⟩ := C69_assemble op v c.2 (nonempty_of_sizes hv hp) hcl
    obtain ⟨z, z1, z2, z3⟩ := ih w (h2.trans hv) (fun d hd => hc d (by simp [hd]))
    refine ⟨z, ?_, z2, fun i => ?_⟩
    · rw [List.foldlM_cons, h1]; exact z1
    · rw [z3 i, h3, getD_add _ _ hcl.symm]
      simp only [Spec.total, List.map_cons, List.sum_cons]
      ring

/-- Without stored element norms: every global norm is the final operation on the sum of all contributions to it (and the external energy). -/
theorem C69_direct (op : Op) (sizes : List Nat) (hp : ∀ n ∈ sizes, 0 < n) (cs : List Contribution) (en : ℝ) (hc : ∀ c ∈ cs, c.2.length = sizes.sum) :
    ∃ g, direct op sizes cs en = some g ∧ g.map List.length = sizes ∧ ∀ i, g.flatten.getD i 0 = op.apply (Spec.total cs i + Spec.external sizes en i) := by
  obtain ⟨w, h1, h2, h3⟩ := direct_loop op sizes hp cs (initial sizes) (initial_len sizes) hc
  refine ⟨finish op (addBoundaryTerms w en), ?_, ?_, fun i => ?_⟩
  · unfold direct; rw [h1]; rfl
  · rw [finish_len, ext_len, h2]
  · rw [finish_flat, getD_op, ext_flat w en sizes h2, h3, initial_flat, zero_add]

/-- The matrix of element values after some contributions. -/
theorem addElm_fold (n nel : Nat) (cs : List Contribution) : ∀ e : List (List ℝ), e.length = nel → (∀ r ∈ e, r.length = n) → (∀ c ∈ cs, c.1 < nel ∧ c.2.length = n) →
    (cs.foldl addElm e).length = nel ∧ (∀ r ∈ cs.foldl addElm e, r.length = n) ∧ ∀ k i, ((cs.foldl addElm e).getD k []).getD i 0 = (e.getD k []).getD i 0 + Spec.ofElement cs k i := by
  induction cs with
  | nil => intro e he hr _; exact ⟨he, hr, fun k i => by simp [Spec.ofElement, Spec.total]⟩
  | cons c cs ih =>
    intro e he hr hc
    obtain ⟨hc1, hc2⟩ := hc c (by simp)
    have hlt : c.1 < e.length := by omega
    have hrow : (e.getD c.1 []).length = n := by rw [List.getD_eq_getElem _ _ hlt]; exact hr _ (List.getElem_mem hlt)
    obtain ⟨a1, a2, a3⟩ := ih (addElm e c) (by simpa [addElm] using he) (by
      intro r hrm
      rcases List.mem_or_eq_of_mem_set hrm with h | h
      · exact hr r h
      · rw [h, List.length_zipWith, hrow, hc2, Nat.min_self]) (fun d hd => hc d (by simp [hd]))
    refine ⟨a1, a2, fun k i => ?_⟩
    rw [List.foldl_cons, a3 k i]
    by_cases hk : c.1 = k
    · subst hk
      have : (addElm e c).getD c.1 [] = List.zipWith (· + ·) (e.getD c.1 []) c.2 := by
        unfold addElm
        rw [List.getD_eq_getElem _ _ (by simpa using hlt), List.getElem_set_self]
      rw [this, getD_add _ _ (by rw [hrow, hc2])]
      simp only [Spec.ofElement, Spec.total, decide_true, List.filter_cons_of_pos, List.map_cons, List.sum_cons]
      ring
    · have : (addElm e c).getD k [] = e.getD k [] := by
        unfold addElm
        simp only [List.getD_eq_getElem?_getD, List.getElem?_set_ne hk]
      rw [this]
      simp only [Spec.ofElement]
      rw [List.filter_cons_of_neg (by simpa using hk)]

theorem final_loop (op : Op) (sizes : List Nat) (hp : ∀ n ∈ sizes, 0 < n) (e : List (List ℝ)) : ∀ (v acc : List (List ℝ)), v.map List.length = sizes → (∀ r ∈ e, r.length = sizes.sum) →
    ∃ w, e.foldlM (finalElm op) (v, acc) = some (w, acc ++ e.map fun r => r.map op.apply) ∧ w.map List.length = sizes ∧
      ∀ i, w.flatten.getD i 0 = v.flatten.getD i 0 + (e.map fun r => r.getD i 0).sum := by
  induction e with
  | nil => intro v acc hv _; exact ⟨v, by simp, hv, fun i => by simp⟩
  | cons r e ih =>
    intro v acc hv hr
    have hcl : r.length = v.flatten.length := by rw [flatten_len hv]; exact hr r (by simp)
    obtain ⟨w, h1, h2, h3⟩ := C69_assemble op v r (nonempty_of_sizes hv hp) hcl
    obtain ⟨z, z1, z2, z3⟩ := ih w (acc ++ [r.map op.apply]) (h2.trans hv) (fun d hd => hr d (by simp [hd]))
    refine ⟨z, ?_, z2, fun i => ?_⟩
    · rw [List.foldlM_cons]
      simp only [finalElm, h1, Option.map_some]
      rw [show (some (w, acc ++ [r.map op.apply]) >>= fun s => List.foldlM (finalElm op) s e) = List.foldlM (finalElm op) (w, acc ++ [r.map op.apply]) e from rfl, z1]
      simp
    · rw [z3 i, h3, getD_add _ _ hcl.symm]
      simp only [List.map_cons, List.sum_cons]
      ring

/-- Summing the contributions element by element gives the sum of all contributions. -/
theorem total_elements (nel : Nat) (cs : List Contribution) (h : ∀ c ∈ cs, c.1 < nel) (i : Nat) :
    ((List.range nel).map fun e => Spec.ofElement cs e i).sum = Spec.total cs i := by
  induction cs with
  | nil => simp [Spec.ofElement, Spec.total]
  | cons c cs ih =>
    have ih' := ih (fun d hd => h d (by simp [hd]))
    have hc := h c (by simp)
    have hs : ∀ e, Spec.ofElement (c :: cs) e i = (if e = c.1 then c.2.getD i 0 else 0) + Spec.ofElement cs e i := by
      intro e
      by_cases he : e = c.1
      · subst he
        simp [Spec.ofElement, Spec.total]
      · simp only [Spec.ofElement, if_neg he, zero_add]
        rw [List.filter_cons_of_neg (by simpa using fun h => he h.symm)]
    simp only [hs, List.sum_map_add, ih']
    have : ((List.range nel).map fun e => if e = c.1 then c.2.getD i 0 else 0).sum = c.2.getD i 0 := by
      rw [List.sum_map_ite_eq, List.count_eq_one_of_mem List.nodup_range (List.mem_range.2 hc)]
      simp
    rw [this]
    simp [Spec.total]

theorem map_getD_range (e : List (List ℝ)) (i : Nat) : (e.map fun r => r.getD i 0) = (List.range e.length).map fun k => (e.getD k []).getD i 0 := by
  apply List.ext_getElem
  · simp
  · intro k h1 h2
    have hk : k < e.length := by simpa using h1
    simp [List.getD_eq_getElem?_getD, hk]

/-- With stored element norms: every global norm is the final operation on the sum of all contributions to it (and the external energy), and every element norm the final operation on the sum of
the contributions of the element. -/
theorem C69_stored (op : Op) (sizes : List Nat) (hp : ∀ n ∈ sizes, 0 < n) (nel : Nat) (cs : List Contribution) (en : ℝ) (hc : Spec.Fits sizes nel cs) :
    ∃ g e, stored op sizes nel cs en = some (g, e) ∧ g.map List.length = sizes ∧ e.length = nel ∧ (∀ r ∈ e, r.length = sizes.sum) ∧
      (∀ i, g.flatten.getD i 0 = op.apply (Spec.total cs i + Spec.external sizes en i)) ∧ ∀ k i, (e.getD k []).getD i 0 = op.apply (Spec.ofElement cs k i) := by
  obtain ⟨a1, a2, a3⟩ := addElm_fold sizes.sum nel cs (List.replicate nel (List.replicate sizes.sum 0)) (by simp) (by
    intro r hr; rw [(List.mem_replicate.1 hr).2]; simp) hc
  have a4 : ∀ k i, ((cs.foldl addElm (List.replicate nel (List.replicate sizes.sum 0))).getD k []).getD i 0 = Spec.ofElement cs k i := by
    intro k i
    rw [a3 k i]
    have : ((List.replicate nel (List.replicate sizes.sum (0:ℝ))).getD k []).getD i 0 = 0 := by
      simp only [List.getD_eq_getElem?_getD, List.getElem?_replicate]
      split
      · simp only [Option.getD_some, List.getElem?_replicate]
        split <;> rfl
      · simp
    rw [this, zero_add]
  generalize hE : cs.foldl addElm (List.replicate nel (List.replicate sizes.sum 0)) = E at a1 a2 a4
  obtain ⟨w, w1, w2, w3⟩ := final_loop op sizes hp E (initial sizes) [] (initial_len sizes) a2
  refine ⟨finish op (addBoundaryTerms w en), E.map fun r => r.map op.apply, ?_, ?_, by simpa using a1, ?_, fun i => ?_, fun k i => ?_⟩
  · unfold stored
    simp only [hE, w1, List.nil_append]
    rfl
  · rw [finish_len, ext_len, w2]
  · intro r hr
    obtain ⟨q, hq, rfl⟩ := List.mem_map.1 hr
    rw [List.length_map, a2 q hq]
  · rw [finish_flat, getD_op, ext_flat w en sizes w2, w3, initial_flat, zero_add, map_getD_range, a1]
    simp only [a4]
    rw [total_elements nel cs (fun c h => (hc c h).1)]
  · have : (E.map fun r => r.map op.apply).getD k [] = (E.getD k []).map op.apply := by
      simp only [List.getD_eq_getElem?_getD, List.getElem?_map]
      cases E[k]? <;> rfl
    rw [this, getD_op, a4]

/-- Two lists of groups with the same sizes and the same values are equal. -/
theorem flatten_inj (a b : List (List ℝ)) (h : a.map List.length = b.map List.length) (hf : a.flatten = b.flatten) : a = b := by
  induction a generalizing b with
  | nil => cases b with
    | nil => rfl
    | cons _ _ => simp at h
  | cons x a ih => cases b with
    | nil => simp at h
    | cons y b =>
      simp only [List.map_cons, List.cons.injEq] at h
      simp only [List.flatten_cons] at hf
      obtain ⟨h1, h2⟩ := List.append_inj hf h.1
      rw [h1, ih b h.2 h2]

theorem ext_getD (a b : List ℝ) (h : a.length = b.length) (hg : ∀ i, a.getD i 0 = b.getD i 0) : a = b := by
  apply List.ext_getElem h
  intro i h1 h2
  have := hg i
  rwa [List.getD_eq_getElem _ _ h1, List.getD_eq_getElem _ _ h2] at this

/-- The global norms do not depend on whether the element norms are stored. -/
theorem C69_same (op : Op) (sizes : List Nat) (hp : ∀ n ∈ sizes, 0 < n) (nel : Nat) (cs : List Contribution) (en : ℝ) (hc : Spec.Fits sizes nel cs) :
    (stored op sizes nel cs en).map Prod.fst = direct op sizes cs en := by
  obtain ⟨g, e, h1, h2, _, _, h3, _⟩ := C69_stored op sizes hp nel cs en hc
  obtain ⟨g', k1, k2, k3⟩ := C69_direct op sizes hp cs en (fun c h => (hc c h).2)
  rw [h1, k1]
  simp only [Option.map_some, Option.some.injEq]
  refine flatten_inj g g' (by rw [h2, k2]) (ext_getD _ _ (by rw [flatten_len h2, flatten_len k2]) fun i => by rw [h3, k3])

/-- The norms do not depend on the order of the contributions. -/
theorem C69_order (op : Op) (sizes : List Nat) (hp : ∀ n ∈ sizes, 0 < n) (nel : Nat) (cs cs' : List Contribution) (en : ℝ) (hc : Spec.Fits sizes nel cs) (hperm : cs.Perm cs') :
    stored op sizes nel cs en = stored op sizes nel cs' en ∧ direct op sizes cs en = direct op sizes cs' en := by
  have hc' : Spec.Fits sizes nel cs' := fun c h => hc c (hperm.mem_iff.2 h)
  have ht : ∀ l l' : List Contribution, l.Perm l' → ∀ i, Spec.total l i = Spec.total l' i := fun l l' h i => (h.map _).sum_eq
  have hs : stored op sizes nel cs en = stored op sizes nel cs' en := by
    obtain ⟨g, e, h1, h2, h4, h5, h3, h6⟩ := C69_stored op sizes hp nel cs en hc
    obtain ⟨g', e', k1, k2, k4, k5, k3, k6⟩ := C69_stored op sizes hp nel cs' en hc'
    rw [h1, k1]
    have hg : g = g' := flatten_inj g g' (by rw [h2, k2]) (ext_getD _ _ (by rw [flatten_len h2, flatten_len k2]) fun i => by rw [h3, k3, ht cs cs' hperm])
    have he : e = e' := by
      apply List.ext_getElem (by rw [h4, k4])
      intro k hk hk'
      apply ext_getD _ _ (by rw [h5 _ (List.getElem_mem hk), k5 _ (List.getElem_mem hk')])
      intro i
      have a := h6 k i
      have b := k6 k i
      rw [List.getD_eq_getElem _ _ hk] at a
      rw [List.getD_eq_getElem _ _ hk'] at b
      rw [a, b]
      congr 1
      exact ht _ _ (hperm.filter _) i
    rw [hg, he]
  exact ⟨hs, by rw [← C69_same op sizes hp nel cs en hc, ← C69_same op sizes hp nel cs' en hc', hs]⟩

/-- With a square root at the end and non-negative contributions: the square of a global norm is the sum of the squares of the element norms. -/
theorem C69_pythagoras (sizes : List Nat) (hp : ∀ n ∈ sizes, 0 < n) (nel : Nat) (cs : List Contribution) (hc : Spec.Fits sizes nel cs) (i : Nat) (hnn : ∀ c ∈ cs, 0 ≤ c.2.getD i 0) :
    ∃ g e, stored .sqrt sizes nel cs 0 = some (g, e) ∧ 0 ≤ g.flatten.getD i 0 ∧ (g.flatten.getD i 0)^2 = ((e.map fun r => (r.getD i 0)^2)).sum := by
  obtain ⟨g, e, h1, h2, h4, h5, h3, h6⟩ := C69_stored .sqrt sizes hp nel cs 0 hc
  have hex : Spec.external sizes 0 i = 0 := by unfold Spec.external; split <;> rfl
  have hnn' : ∀ l : List Contribution, (∀ c ∈ l, 0 ≤ c.2.getD i 0) → 0 ≤ Spec.total l i := by
    intro l hl
    apply List.sum_nonneg
    intro x hx
    obtain ⟨c, hc, rfl⟩ := List.mem_map.1 hx
    exact hl c hc
  have hap : ∀ x : ℝ, 0 ≤ x → Op.apply .sqrt x = Real.sqrt x := fun x hx => by simp only [Op.apply]; rw [if_neg (not_lt.2 hx)]
  have hT := hnn' cs hnn
  have hE : ∀ k, 0 ≤ Spec.ofElement cs k i := fun k => hnn' _ fun c hcm => hnn c (List.mem_filter.1 hcm).1
  refine ⟨g, e, h1, ?_, ?_⟩
  · rw [h3, hex, add_zero, hap _ hT]; exact Real.sqrt_nonneg _
  · rw [h3, hex, add_zero, hap _ hT, Real.sq_sqrt hT, ← total_elements nel cs (fun c h => (hc c h).1)]
    have : (e.map fun r => (r.getD i 0)^2) = (List.range e.length).map fun k => ((e.getD k []).getD i 0)^2 := by
      have := congrArg (List.map (fun x : ℝ => x^2)) (map_getD_range e i)
      simpa [List.map_map, Function.comp_def] using this
    rw [this, h4]
    congr 1
    apply List.map_congr_left
    intro k _
    rw [h6, hap _ (hE k), Real.sq_sqrt (hE k)]

/-- Norm `j` of group `k` has number `place` among the values, and (counted from 1) row `eRow` in the matrix of element norms. -/
theorem C69_place (sizes : List Nat) (g : List (List ℝ)) (hg : g.map List.length = sizes) (k j : Nat) (hk : k < g.length) (hj : j < g[k].length) :
    g.flatten[Spec.place sizes k j]? = some (g[k][j]) ∧ eRow sizes k (j+1) = Spec.place sizes k j + 1 := by
  refine ⟨?_, by unfold eRow Spec.place; omega⟩
  subst hg
  unfold Spec.place
  induction g generalizing k with
  | nil => simp at hk
  | cons a g ih =>
    cases k with
    | zero =>
      simp only [List.getElem_cons_zero] at hj
      simp [List.getElem?_append_left hj]
    | succ k =>
      simp only [List.getElem_cons_succ] at hj ⊢
      have hk' : k < g.length := by simpa using hk
      rw [← ih k hk' hj]
      simp only [List.map_cons, List.take_succ_cons, List.sum_cons, List.flatten_cons]
      rw [List.getElem?_append_right (by omega)]
      congr 1
      omega

/-- A group without values in between makes the first value after it get lost and shifts the others. -/
theorem C69_skipped (op : Op) (a b c d x1 x2 x3 x4 : ℝ) :
    (assemble op [[a, b], [], [c, d]] [x1, x2, x3, x4]).map Prod.fst = some [[a+x1, b+x2], [], [c+x4, d]] := by
  simp [assemble, addOne]

/-- The resultant forces are the sums of those of the elements. -/
theorem C69_forces (ncmp : Nat) (els : List (List ℝ)) : (sumForces ncmp els).length = ncmp ∧ ∀ j, j < ncmp → (sumForces ncmp els)[j]? = some ((els.map fun el => el.getD j 0).sum) := by
  have key : ∀ (els : List (List ℝ)) (g : List ℝ), (els.foldl (fun (g : List ℝ) (el : List ℝ) => g.mapIdx fun j x => x + el.getD j 0) g).length = g.length ∧
      ∀ j x, g[j]? = some x → (els.foldl (fun (g : List ℝ) (el : List ℝ) => g.mapIdx fun j x => x + el.getD j 0) g)[j]? = some (x + (els.map fun el => el.getD j 0).sum) := by
    intro els
    induction els with
    | nil => intro g; exact ⟨rfl, fun j x h => by simpa using h⟩
    | cons el els ih =>
      intro g
      obtain ⟨i1, i2⟩ := ih (g.mapIdx fun j x => x + el.getD j 0)
      refine ⟨by rw [List.foldl_cons, i1]; simp, fun j x h => ?_⟩
      rw [List.foldl_cons, i2 j (x + el.getD j 0) (by simp [List.getElem?_mapIdx, h])]
      simp only [List.map_cons, List.sum_cons]
      congr 1
      ring
  obtain ⟨k1, k2⟩ := key els (List.replicate ncmp 0)
  refine ⟨by unfold sumForces; rw [k1]; simp, fun j hj => ?_⟩
  unfold sumForces
  rw [k2 j 0 (by simp [hj]), zero_add]

/-- What the final operations are: nothing, the absolute value, the square root with the sign of the value. -/
theorem C69_final (x : ℝ) : Op.apply .none x = x ∧ Op.apply .abs x = |x| ∧ (0 ≤ x → Op.apply .sqrt x = Real.sqrt x) ∧ (x ≤ 0 → Op.apply .sqrt x = -Real.sqrt |x|) := by
  refine ⟨rfl, rfl, fun h => ?_, fun h => ?_⟩
  · simp only [Op.apply]; rw [if_neg (not_lt.2 h)]
  · simp only [Op.apply]
    rcases lt_or_eq_of_le h with h | h
    · rw [if_pos h, abs_of_neg h]
    · subst h; simp

/-- Two groups of norms, three contributions to two elements. -/
example : Spec.Fits [2, 1] 2 [(0, [4, 1, 9]), (1, [5, 1, 0]), (0, [0, 2, 7])] ∧ (∀ n ∈ [2, 1], 0 < n) := by
  refine ⟨?_, by decide⟩
  intro c hc
  simp only [List.mem_cons, List.not_mem_nil, or_false] at hc
  rcases hc with rfl | rfl | rfl <;> simp

example : ∃ g e, stored .sqrt [2, 1] 2 [(0, [4, 1, 9]), (1, [5, 1, 0]), (0, [0, 2, 7])] 0 = some (g, e) ∧ g.flatten.getD 0 0 = 3 := by
  obtain ⟨g, e, h1, _, _, _, h3, _⟩ := C69_stored .sqrt [2, 1] (by decide) 2 [(0, [4, 1, 9]), (1, [5, 1, 0]), (0, [0, 2, 7])] 0 (by
    intro c hc
    simp only [List.mem_cons, List.not_mem_nil, or_false] at hc
    rcases hc with rfl | rfl | rfl <;> simp)
  refine ⟨g, e, h1, ?_⟩
  rw [h3]
  have : Spec.total [(0, [4, 1, 9]), (1, [5, 1, 0]), (0, [0, 2, 7])] 0 + Spec.external [2, 1] 0 0 = 9 := by
    simp [Spec.total, Spec.external]; norm_num
  rw [this]
  simp only [Op.apply]
  rw [if_neg (by norm_num), show (9:ℝ) = 3^2 by norm_num, Real.sqrt_sq (by norm_num)]

end IFEM.Norms
