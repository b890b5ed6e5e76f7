import Verif.Props.MergeNodes
import Verif.Props.RenumberData
import Verif.Props.Couplings
import Verif.Props.Mpc
import Verif.Props.SamPatch
import Verif.Props.BoundaryCodes
/-!
# Requests that are refused: status and unchanged data
-/
namespace IFEM.Props
open IFEM IFEM.Spec IFEM.Lem

variable {K : Type}

/-! ## C21 -/

/-- Collapsing is refused, and nothing is changed, if a node is not in its patch, or if the nodes have the same global number already. -/
theorem C21_collapse_refused (M : PatchModel K) (q1 q2 : Nat) (n1 n2 : Int) (p1 p2 : Patch K)
    (hq1 : M.patches[q1]? = some p1) (hq2 : M.patches[q2]? = some p2) :
    ((n1 < 1 ∨ (p1.mlgn.length : Int) < n1 ∨ n2 < 1 ∨ (p2.mlgn.length : Int) < n2) → collapseNodes M q1 n1 q2 n2 = (false, M)) ∧
    (∀ g, 1 ≤ n1 → 1 ≤ n2 → p1.mlgn[(n1-1).toNat]? = some g → p2.mlgn[(n2-1).toNat]? = some g → collapseNodes M q1 n1 q2 n2 = (false, M)) := by
  unfold collapseNodes
  rw [hq1, hq2]
  dsimp only
  constructor
  · intro h
    by_cases h1 : n1 < 1 ∨ n1 > (p1.mlgn.length : Int)
    · rw [if_pos h1]
    · rw [if_neg h1, if_pos (by omega)]
  · intro g h1 h2 hg1 hg2
    obtain ⟨l1, _⟩ := List.getElem?_eq_some_iff.mp hg1
    obtain ⟨l2, _⟩ := List.getElem?_eq_some_iff.mp hg2
    have e1 : p1.mlgn.getD (n1-1).toNat 0 = g := by rw [List.getD_eq_getElem?_getD, hg1]; rfl
    have e2 : p2.mlgn.getD (n2-1).toNat 0 = g := by rw [List.getD_eq_getElem?_getD, hg2]; rfl
    rw [if_neg (by omega), if_neg (by omega), e1, e2, if_neg (by omega), if_neg (by omega)]

/-- With renumbering of the nodes themselves, a mapping of several nodes is accepted exactly if it has all nodes of the patch and all referred nodes. -/
theorem C21_missing_node_reported_all (o2n : List (Int × Int)) (p : Patch K) (h2 : 1 < o2n.length) :
    (renumberData o2n 1 p).1 = false ↔ ∃ n, (n ∈ p.mlgn ∨ Refers p n) ∧ o2n.lookup n = none := by
  have hst : ∀ n, (renumberOld o2n n).1 = true ↔ o2n.lookup n ≠ none := by
    intro n
    unfold renumberOld
    cases o2n.lookup n <;> simp
  have e : (renumberData o2n 1 p).1 = false ↔ (∃ n ∈ p.mlgn, o2n.lookup n = none) ∨ (renumberData o2n 0 p).1 = false := by
    unfold renumberData
    dsimp only
    rw [show decide (o2n.length > 1 ∧ (0:Int) < 2) = true by simp; exact h2, show decide (o2n.length > 1 ∧ (1:Int) < 2) = true by simp; exact h2,
      if_pos (by decide), if_neg (by omega)]
    simp only [Bool.and_true, Bool.not_eq_false', decide_eq_true_eq, Nat.zero_add]
    constructor
    · intro h
      by_cases hz : (p.mlgn.filter fun n => !(renumberOld o2n n).1) = []
      · rw [hz] at h; right; simpa using h
      · left
        obtain ⟨n, hn⟩ := List.exists_mem_of_ne_nil _ hz
        obtain ⟨hn1, hn2⟩ := List.mem_filter.mp hn
        refine ⟨n, hn1, ?_⟩
        by_contra hc
        rw [(hst n).mpr hc] at hn2
        simp at hn2
    · rintro (⟨n, hn, hl⟩ | h)
      · have : n ∈ p.mlgn.filter fun n => !(renumberOld o2n n).1 := by
          refine List.mem_filter.mpr ⟨hn, ?_⟩
          have := (hst n).not.mpr (by simp [hl])
          simpa using this
        have := List.length_pos_of_mem this
        omega
      · omega
  rw [e, C21_missing_node_reported o2n p h2]
  constructor
  · rintro (⟨n, h, hl⟩ | ⟨n, h, hl⟩)
    · exact ⟨n, Or.inl h, hl⟩
    · exact ⟨n, Or.inr h, hl⟩
  · rintro ⟨n, h | h, hl⟩
    · exact Or.inl ⟨n, h, hl⟩
    · exact Or.inr ⟨n, h, hl⟩

/-! ## C17 -/

section
variable [Field K] [LinearOrder K]

/-- Two lists of masters agree: the same DOFs in the same order, with coefficients that differ by less than the tolerance. -/
def SameMasters (tol : K) (a b : List (MTerm K)) : Prop :=
  a.length = b.length ∧ ∀ (i : Nat) (s t : MTerm K), a[i]? = some s → b[i]? = some t → (s.node, s.dof) = (t.node, t.dof) ∧ |s.coeff - t.coeff| < tol

theorem identicMasters_iff (tol : K) (a b : List (MTerm K)) : identicMasters tol a b = true ↔ SameMasters tol a b := by
  induction a generalizing b with
  | nil =>
    cases b with
    | nil => simp [identicMasters, SameMasters]
    | cons y ys => simp [identicMasters, SameMasters]
  | cons x xs ih =>
    cases b with
    | nil => simp [identicMasters, SameMasters]
    | cons y ys =>
      rw [identicMasters, Bool.and_eq_true, Bool.and_eq_true, decide_eq_true_eq, decide_eq_true_eq, ih]
      unfold SameMasters
      constructor
      · rintro ⟨⟨h1, h2⟩, h3, h4⟩
        refine ⟨by simp [h3], fun i s t hs ht => ?_⟩
        cases i with
        | zero => simp at hs ht; subst hs; subst ht; exact ⟨h1, h2⟩
        | succ i => simp at hs ht; exact h4 i s t hs ht
      · rintro ⟨h1, h2⟩
        refine ⟨h2 0 x y rfl rfl, by simpa using h1, fun i s t hs ht => h2 (i+1) s t (by simpa using hs) (by simpa using ht)⟩

/-- **C17** (merging). A merge takes place exactly if slave DOF and constant agree and the masters differ. -/
theorem C17_merge_iff (tol : K) (m other : Mpc K) :
    (m.merge tol other).1 = true ↔ (m.node, m.dof, m.c0) = (other.node, other.dof, other.c0) ∧ ¬ SameMasters tol m.master other.master := by
  rw [← identicMasters_iff]
  unfold Mpc.merge
  simp only [Mpc.key, Prod.mk.injEq, ← and_assoc]
  by_cases h1 : (m.node = other.node ∧ m.dof = other.dof) ∧ m.c0 = other.c0
  · rw [if_neg (by simp [h1])]
    by_cases h2 : identicMasters tol m.master other.master = true
    · rw [if_pos h2]; simp [h2]
    · rw [if_neg h2]; simp [h1, h2]
  · rw [if_pos h1]; simp [h1]

example : SameMasters (1/100) [(⟨1, 1, 2, false⟩ : MTerm ℚ)] [⟨1, 1, 2, true⟩] ∧ ¬ SameMasters (1/100) [(⟨1, 1, 2, false⟩ : MTerm ℚ)] [⟨1, 1, 3, true⟩] := by
  rw [← identicMasters_iff, ← identicMasters_iff]; decide +kernel

end

/-! ## C19 -/

/-- **C19** (what is answered for several components, see F40). With the decimal digits of the code, a component counts only if the number formed by its digit and all digits to the left
does not exceed the number of nodal DOFs. -/
theorem C19_is_fixed_all_actual (nf : Nat) (bcs : List Bc) (n : Int) (code : Nat) (hc : 10 ≤ code) :
    isFixed nf bcs n code true = true ↔ bcs ≠ [] ∧ ∀ k : Nat, 0 < code / 10^k → code / 10^k ≤ nf → FixedDof bcs n (code / 10^k % 10) := by
  have key : ∀ d found, isFixedLoop nf bcs n d found = true ↔ found = true ∧ ∀ k : Nat, 0 < d / 10^k → d / 10^k ≤ nf → FixedDof bcs n (d / 10^k % 10) := by
    intro d
    induction d using Nat.strongRecOn with
    | ind d ih =>
      intro found
      rw [isFixedLoop]
      split
      · rename_i h
        rcases h with h | h
        · subst h; simp
        · simp [h]
      · rename_i h
        simp only [not_or, Bool.not_eq_false] at h
        rw [ih (d/10) (Nat.div_lt_self (by omega) (by omega))]
        have hs : ∀ k, d / 10 / 10^k = d / 10^(k+1) := fun k => by rw [Nat.div_div_eq_div_mul, Nat.pow_succ, Nat.mul_comm]
        simp only [hs, h.2, true_and]
        have hfix : (bcs.any (fixedOp n (d % 10)) = true) ↔ FixedDof bcs n (d % 10) := by
          have := C19_is_fixed nf bcs n (d % 10) (by omega) false
          rw [isFixed, if_pos (Or.inl (by omega))] at this
          exact this
        constructor
        · rintro ⟨h1, h2⟩ k hk0 hk
          cases k with
          | zero =>
            simp only [pow_zero, Nat.div_one] at hk ⊢
            rw [if_pos hk] at h1
            exact hfix.mp h1
          | succ k => exact h2 k hk0 hk
        · intro h2
          refine ⟨?_, fun k => h2 (k+1)⟩
          split
          · rename_i hd
            exact hfix.mpr (by simpa using h2 0 (by simp; omega) (by simpa using hd))
          · rfl
  rw [isFixed, if_neg (by simp; omega), key]
  cases bcs <;> simp

/-- A code of three components in which only the first counts. -/
example : isFixed 3 [⟨1, 0, 1, 1, 1, 1, 1⟩] 1 123 true = true := by
  rw [C19_is_fixed_all_actual _ _ _ _ (by decide)]
  refine ⟨by simp, fun k h1 h2 => ?_⟩
  match k with
  | 0 => norm_num at h2
  | 1 => norm_num at h2
  | 2 => exact ⟨_, List.mem_cons_self, rfl, by decide⟩
  | k+3 =>
    have : 123 / 10^(k+3) = 0 := Nat.div_eq_of_lt (by
      have : 10^3 ≤ 10^(k+3) := Nat.pow_le_pow_right (by omega) (by omega)
      omega)
    omega

/-! ## C50 -/

/-- **C50** (periodicity). With a local node that is not in the patch, or a node without valid global number, the request is refused and nothing is changed. -/
theorem C50_periodicity_refused [Field K] [LinearOrder K] (tol : K) (p : Patch K) (master slave dir : Nat)
    (h : nodeID p.mlgn slave < 1 ∨ nodeID p.mlgn master < 1) : addPeriodicity tol p master slave dir = some (p, false) := by
  unfold addPeriodicity
  dsimp only
  rw [if_pos h]

/-! ## C51 -/

/-- **C51** (reported errors). Whenever the tables are built without leaving an array, success is reported exactly if the patches agree on the number of DOFs of each node and the element
numbers are unique. -/
theorem C51_build_status [Field K] [LinearOrder K] (P : List (SPatch K)) (nnod f : Nat)
    (hp : ∀ q : Int × Nat, q ∈ P.flatMap (fun p => p.nodes) → 1 ≤ q.1 → q.1 ≤ (nnod : Int) → 1 ≤ q.2)
    (s : Sam K) (b : Bool) (h : buildTables nnod f P = some (s, b)) :
    b = true ↔ ConsistentNodes P nnod ∧ ((allElms P).map fun e => e.1).Nodup := by
  unfold buildTables at h
  simp only [Option.bind_eq_bind] at h
  cases h1 : initNodeDofs nnod P with
  | none => rw [h1] at h; simp at h
  | some r =>
    have hc := C51_conflict_detected P nnod hp r h1
    obtain ⟨madof, msc, ok⟩ := r
    rw [h1] at h
    simp only [Option.bind_some] at h
    dsimp only at hc
    cases ok with
    | false =>
      simp at h
      have : ¬ ConsistentNodes P nnod := by rw [← hc]; simp
      simp [← h.2, this]
    | true =>
      rw [if_pos rfl] at h
      have hc' : ConsistentNodes P nnod := hc.mp rfl
      rw [C51_duplicate_elements]
      cases h2 : initElementConn P with
      | none => rw [h2] at h; simp at h
      | some e =>
        rw [h2] at h
        simp only [Option.bind_some] at h
        cases e with
        | none =>
          simp at h
          simp [← h.2]
        | some x =>
          obtain ⟨nel, mp, mm⟩ := x
          dsimp only at h
          cases h3 : initConstraintEqs madof msc f P with
          | none => rw [h3] at h; simp at h
          | some c =>
            rw [h3] at h
            simp at h
            simp [← h.2, hc']

end IFEM.Props
