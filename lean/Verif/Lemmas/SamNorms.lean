import Verif.Spec.SamNorms
import Verif.Lemmas.FELookup
import Verif.Props.Queries
/-!
# Lemmas: loops over the DOFs of a type
-/
namespace IFEM.Props
open IFEM.Spec
open Sam
variable {R : Type}

/-- `madof` holds the first DOFs of the nodes. -/
def MadofOK (s : Sam R) (D : FEModel R) : Prop :=
  s.nnod = D.nndof.length ∧ ∀ n, 1 ≤ n → n ≤ D.nndof.length + 1 → at1? s.madof n = some (D.firstDof n : Int)

theorem madof_at0 {s : Sam R} {D : FEModel R} (hm : MadofOK s D) (i : Nat) (hi : i ≤ D.nndof.length) :
    at0? s.madof (i : Int) = some (D.firstDof (i+1) : Int) := by
  rw [at0?_succ]
  have := hm.2 (i+1) (by omega) (by omega)
  simpa using this

theorem mem_nodeDofs {D : FEModel R} {n d : Nat} (h1 : 1 ≤ n) (h2 : n ≤ D.nndof.length) :
    d ∈ D.nodeDofs n ↔ D.firstDof n ≤ d ∧ d < D.firstDof (n+1) := by
  unfold FEModel.nodeDofs
  rw [List.mem_range'_1, firstDof_succ D h1 h2]

theorem node_unique {D : FEModel R} {n n' d : Nat} (h1 : 1 ≤ n) (h2 : n ≤ D.nndof.length) (h1' : 1 ≤ n') (h2' : n' ≤ D.nndof.length)
    (h : d ∈ D.nodeDofs n) (h' : d ∈ D.nodeDofs n') : n = n' := by
  rw [mem_nodeDofs h1 h2] at h
  rw [mem_nodeDofs h1' h2'] at h'
  rcases Nat.lt_trichotomy n n' with hlt | he | hlt
  · have := firstDof_mono D (show n+1 ≤ n' by omega); omega
  · exact he
  · have := firstDof_mono D (show n'+1 ≤ n by omega); omega

theorem firstDof_pos (D : FEModel R) (n : Nat) : 1 ≤ D.firstDof n := by unfold FEModel.firstDof; omega

/-- The DOFs of the first `k` nodes, one after the other. -/
theorem nodeDofs_flatMap (D : FEModel R) (k : Nat) (hk : k ≤ D.nndof.length) :
    (List.range k).flatMap (fun i => D.nodeDofs (i+1)) = List.range' 1 (D.firstDof (k+1) - 1) := by
  induction k with
  | zero => simp [FEModel.firstDof]
  | succ k ih =>
    rw [List.range_succ, List.flatMap_append, ih (by omega), List.flatMap_singleton, firstDof_succ D (n := k+1) (by omega) hk]
    have hp := firstDof_pos D (k+1)
    unfold FEModel.nodeDofs
    have : List.range' (D.firstDof (k+1)) (D.nndof.getD (k+1-1) 0) = List.range' (1 + (D.firstDof (k+1) - 1)) (D.nndof.getD (k+1-1) 0) := by
      congr 1; omega
    rw [this, List.range'_append_1]
    congr 1; omega

theorem all_dofs (D : FEModel R) : (List.range D.nndof.length).flatMap (fun i => D.nodeDofs (i+1)) = List.range' 1 D.nndof.sum := by
  rw [nodeDofs_flatMap D _ (le_refl _), firstDof_last]; rfl

theorem typeIs_some (types : List Char) (i : Nat) (t : Char) (h : types = [] ∨ i < types.length) :
    typeIs types (i : Int) t = some (decide (types ≠ [] → types[i]? = some t)) := by
  unfold typeIs
  by_cases he : types = []
  · simp [he]
  · have hi : i < types.length := h.resolve_left he
    rw [if_neg he, at0?_natCast, List.getElem?_eq_getElem hi]
    simp [he]

theorem filterAuxM_some {α : Type} (l : List α) (p : α → Option Bool) (q : α → Bool) (h : ∀ a ∈ l, p a = some (q a)) (acc : List α) :
    List.filterAuxM p l acc = some ((l.filter q).reverse ++ acc) := by
  induction l generalizing acc with
  | nil => rfl
  | cons a l ih =>
    have ih := ih (fun b hb => h b (List.mem_cons_of_mem _ hb))
    unfold List.filterAuxM
    rw [h a List.mem_cons_self]
    cases hq : q a
    · simpa [hq] using ih acc
    · simpa [hq] using ih (a :: acc)

theorem filterM_some {α : Type} (l : List α) (p : α → Option Bool) (q : α → Bool) (h : ∀ a ∈ l, p a = some (q a)) : l.filterM p = some (l.filter q) := by
  unfold List.filterM
  rw [filterAuxM_some l p q h]
  simp

theorem intRange_eq_map (a b : Nat) (ha : 1 ≤ a) : intRange ((a : Int) - 1) ((b : Int) - 1) = (List.range' a (b - a)).map (fun d : Nat => (d : Int) - 1) := by
  unfold intRange
  rw [List.range'_eq_map_range, List.map_map]
  have : ((b : Int) - 1 - ((a : Int) - 1)).toNat = b - a := by omega
  rw [this]
  apply List.map_congr_left
  intro k _
  simp only [Function.comp]
  push_cast; omega

theorem range'_filter_lt (a n m : Nat) : (List.range' a n).filter (fun d => decide (d ≤ m)) = List.range' a (min n (m + 1 - a)) := by
  induction n generalizing a with
  | zero => simp
  | succ n ih =>
    rw [List.range'_succ, List.filter_cons]
    by_cases h : a ≤ m
    · rw [if_pos (by simpa using h), ih]
      have : min (n+1) (m+1-a) = min n (m+1-(a+1)) + 1 := by omega
      rw [this, List.range'_succ]
    · rw [if_neg (by simpa using h), ih]
      have h1 : min (n+1) (m+1-a) = 0 := by omega
      have h2 : min n (m+1-(a+1)) = 0 := by omega
      rw [h1, h2]; rfl

open Classical in
/-- The DOFs visited in a node. -/
theorem typedNodeIdx_spec {s : Sam R} {D : FEModel R} (hm : MadofOK s D) (hnd : D.status.length = D.nndof.sum) {ty : DofTypes} (hty : TypesFit D ty) (t : Char) (n i : Nat)
    (hi : i < D.nndof.length) :
    s.typedNodeIdx ty t n i = some (((D.nodeDofs (i+1)).filter (fun d => decide (HasType D ty t d) && decide (d ≤ n))).map (fun d : Nat => (d : Int) - 1)) := by
  unfold typedNodeIdx
  rw [typeIs_some _ _ _ (hty.node.imp id (fun h => by omega))]
  have hmem : ∀ d ∈ D.nodeDofs (i+1), (HasType D ty t d ↔ (ty.nodeType ≠ [] → ty.nodeType[i]? = some t) ∧ (ty.dofType ≠ [] → ty.dofType[d-1]? = some t)) := by
    intro d hd
    constructor
    · rintro ⟨n', h1, h2, h3, h4, h5⟩
      have := node_unique (n' := i+1) h1 h2 (by omega) (by omega) h3 hd
      subst this
      exact ⟨by simpa using h4, h5⟩
    · rintro ⟨h4, h5⟩
      exact ⟨i+1, by omega, by omega, hd, by simpa using h4, h5⟩
  by_cases hsel : (ty.nodeType ≠ [] → ty.nodeType[i]? = some t)
  · rw [decide_eq_true hsel]
    have h2 := madof_at0 hm (i+1) (by omega)
    push_cast at h2
    simp only [Option.bind_eq_bind, Option.bind_some, if_true, madof_at0 hm i (by omega), h2]
    have hmono := firstDof_mono D (show i+1 ≤ i+1+1 by omega)
    have hlast := firstDof_mono D (show i+1+1 ≤ D.nndof.length + 1 by omega)
    rw [firstDof_last] at hlast
    have hpos := firstDof_pos D (i+1)
    rw [show min ((D.firstDof (i+1+1) : Int) - 1) (n : Int) = ((min (D.firstDof (i+1+1)) (n+1) : Nat) : Int) - 1 by push_cast; omega,
      intRange_eq_map _ _ hpos]
    have hl : List.range' (D.firstDof (i+1)) (min (D.firstDof (i+1+1)) (n+1) - D.firstDof (i+1)) = (D.nodeDofs (i+1)).filter (fun d => decide (d ≤ n)) := by
      unfold FEModel.nodeDofs
      rw [range'_filter_lt]
      have := firstDof_succ D (n := i+1) (by omega) (by omega)
      congr 1; omega
    rw [hl, filterM_some _ _ (fun j : Int => decide (ty.dofType ≠ [] → ty.dofType[j.toNat]? = some t))]
    · congr 1
      rw [List.filter_map, List.filter_filter]
      congr 1
      apply List.filter_congr
      intro d hd
      have hd' := hmem d hd
      rw [mem_nodeDofs (by omega) (by omega)] at hd
      have he : ((d : Int) - 1).toNat = d - 1 := by omega
      apply Bool.eq_iff_iff.2
      simp only [Function.comp, he, Bool.and_eq_true, decide_eq_true_eq]
      rw [hd']
      tauto
    · intro j hj
      obtain ⟨d, hd, rfl⟩ := List.mem_map.1 hj
      have hd := (List.mem_filter.1 hd).1
      rw [mem_nodeDofs (by omega) (by omega)] at hd
      have he : ((d : Int) - 1) = ((d - 1 : Nat) : Int) := by omega
      rw [he, typeIs_some _ _ _ (hty.dof.imp id (fun h => by omega))]
      rfl
  · rw [decide_eq_false hsel]
    simp only [Option.bind_eq_bind, Option.bind_some, Bool.false_eq_true, if_false]
    symm
    congr 1
    rw [List.map_eq_nil_iff, List.filter_eq_nil_iff]
    intro d hd
    have := (hmem d hd)
    simp only [Bool.and_eq_true, decide_eq_true_eq, not_and]
    intro h
    exact absurd (this.1 h).1 hsel

open Classical in
/-- The DOFs visited by `dot` and `normL2`. -/
theorem typedIdx_spec {s : Sam R} {D : FEModel R} (hm : MadofOK s D) (hnd : D.status.length = D.nndof.sum) {ty : DofTypes} (hty : TypesFit D ty) (t : Char) (n : Nat) :
    s.typedIdx ty t n = some (((typedDofs D ty t).filter (fun d => decide (d ≤ n))).map (fun d : Nat => (d : Int) - 1)) := by
  unfold typedIdx
  rw [hm.1, mapM_some _ _ (fun i => ((D.nodeDofs (i+1)).filter (fun d => decide (HasType D ty t d) && decide (d ≤ n))).map (fun d : Nat => (d : Int) - 1))
    (fun i hi => typedNodeIdx_spec hm hnd hty t n i (List.mem_range.1 hi))]
  rw [Option.map_some]
  congr 1
  unfold typedDofs
  rw [hnd, ← all_dofs, List.filter_filter, List.filter_flatMap, List.map_flatMap, List.flatMap_def]
  congr 1
  apply List.map_congr_left
  intro i _
  congr 1
  apply List.filter_congr
  intro d _
  exact Bool.and_comm _ _

theorem mem_typedDofs {D : FEModel R} {ty : DofTypes} {t : Char} {d : Nat} (h : d ∈ typedDofs D ty t) : 1 ≤ d ∧ d ≤ D.status.length ∧ HasType D ty t d := by
  classical
  unfold typedDofs at h
  rw [List.mem_filter, List.mem_range'_1, decide_eq_true_eq] at h
  exact ⟨h.1.1, by omega, h.2⟩

end IFEM.Props
