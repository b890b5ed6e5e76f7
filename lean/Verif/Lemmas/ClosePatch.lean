import Verif.Model.ClosePatch
import Verif.Spec.ClosePatch
import Verif.Props.MergeNodes
import Verif.Props.Utilities
import Mathlib.Tactic.IntervalCases
import Mathlib.Tactic.Ring
import Mathlib.Tactic.Linarith
/-!
# Lemmas for C86
-/
namespace IFEM.ClosePatch
open IFEM IFEM.Spec IFEM.Props Spec
variable {K : Type} [Field K] [LinearOrder K]

/-- The global number of a node of patch `q` (zero if there is none). -/
def nodeNum (M : PatchModel K) (q x : Nat) : Int := nodeID ((M.patches[q]?.map fun p => p.mlgn).getD []) x

/-- Patch `q` exists, has `L` nodes and `nf` unknowns per node, and is not a neighbour of itself. -/
def HasPatch (M : PatchModel K) (q L nf : Nat) : Prop := ∃ p, M.patches[q]? = some p ∧ p.mlgn.length = L ∧ p.nf = nf ∧ q ∉ M.neighbors.getD q []

/-- One pair of nodes gets a common number. -/
def pairUp (ν : Nat → Int) (p : Nat × Nat) : Nat → Int := fun x => if x = p.1 ∨ x = p.2 then min (ν p.1) (ν p.2) else ν x

/-- Several pairs, one after the other. -/
def pairAll (ν : Nat → Int) (L : List (Nat × Nat)) : Nat → Int := L.foldl pairUp ν

omit [Field K] [LinearOrder K] in
theorem neighbors_skip (o g : Int) (q : Nat) (nb : List Nat) (hq : q ∉ nb) (ps : List (Patch K)) :
    (nb.foldl (fun ps r =>
          match ps[r]? with
          | some x => ps.set r (renumberData [(o, g)] 1 x).2
          | none => ps) ps)[q]? = ps[q]? := by
  induction nb generalizing ps with
  | nil => rfl
  | cons r nb ih =>
    rw [List.foldl_cons, ih (fun h => hq (by simp [h]))]
    have hr : r ≠ q := fun h => hq (by simp [h])
    split
    · rw [List.getElem?_set, if_neg hr]
    · rfl

omit [Field K] [LinearOrder K] in
theorem merge_num (M : PatchModel K) (q L nf a : Nat) (g : Int) (h : HasPatch M q L nf) (h1 : 1 ≤ a) (h2 : a ≤ L) (hg : nodeNum M q a ≠ g) :
    HasPatch (mergeNodes M q a g).2 q L nf ∧ ∀ x, nodeNum (mergeNodes M q a g).2 q x = if x = a then g else nodeNum M q x := by
  obtain ⟨p, hp, hL, hf, hn⟩ := h
  have hnum : ∀ x, nodeNum M q x = nodeID p.mlgn x := by intro x; rw [nodeNum, hp]; rfl
  have hold : p.mlgn.getD (a-1) 0 ≠ g := by
    rw [hnum, nodeID, if_neg (by omega)] at hg; exact hg
  rw [mergeNodes, hp]
  dsimp only
  rw [if_neg (by omega), if_neg hold]
  have hq : q < M.patches.length := (List.getElem?_eq_some_iff.mp hp).1
  generalize hps : List.foldl _ (M.patches.set q _) (M.neighbors.getD q []) = ps
  have key : ps[q]? = some { p with mlgn := p.mlgn.set (a-1) g } := by
    rw [← hps]
    refine (neighbors_skip (p.mlgn.getD (a-1) 0) g q _ hn _).trans ?_
    rw [List.getElem?_set, if_pos rfl, if_pos hq]
  have hlen : q < ps.length := (List.getElem?_eq_some_iff.mp key).1
  rw [key]
  dsimp only
  obtain ⟨p', hp', hm', hf'⟩ : ∃ p', (renumberData [(p.mlgn.getD (a-1) 0, g)] 0 { p with mlgn := p.mlgn.set (a-1) g }).2 = p' ∧ p'.mlgn = p.mlgn.set (a-1) g ∧ p'.nf = nf := by
    refine ⟨_, rfl, ?_, ?_⟩
    · rw [renumberData_zero]
    · rw [renumberData_zero]; exact hf
  rw [hp']
  refine ⟨⟨p', ?_, ?_, hf', hn⟩, fun x => ?_⟩
  · dsimp only
    rw [List.getElem?_set, if_pos rfl, if_pos hlen]
  · rw [hm', List.length_set]; exact hL
  · rw [hnum, nodeNum]
    dsimp only
    rw [List.getElem?_set, if_pos rfl, if_pos hlen]
    simp only [Option.map_some, Option.getD_some, nodeID, hm']
    by_cases hx : x = a
    · subst hx
      rw [if_neg (by omega), if_pos rfl, List.getD_eq_getElem?_getD, List.getElem?_set, if_pos rfl, if_pos (by omega)]
      rfl
    · rw [if_neg hx]
      by_cases hx0 : x < 1
      · rw [if_pos hx0, if_pos hx0]
      · rw [if_neg hx0, if_neg hx0, List.getD_eq_getElem?_getD, List.getElem?_set, if_neg (by omega), ← List.getD_eq_getElem?_getD]

omit [Field K] [LinearOrder K] in
theorem collapse_num (M : PatchModel K) (q L nf : Nat) (p : Nat × Nat) (h : HasPatch M q L nf) (h1 : 1 ≤ p.1 ∧ p.1 ≤ L) (h2 : 1 ≤ p.2 ∧ p.2 ≤ L) :
    HasPatch (collapseNodes M q p.1 q p.2).2 q L nf ∧ ∀ x, nodeNum (collapseNodes M q p.1 q p.2).2 q x = pairUp (nodeNum M q) p x := by
  obtain ⟨a, b⟩ := p
  dsimp only at h1 h2 ⊢
  have h' := h
  obtain ⟨p, hp, hL, hf, hn⟩ := h
  have hnum : ∀ x, nodeNum M q x = nodeID p.mlgn x := by intro x; rw [nodeNum, hp]; rfl
  have ea : p.mlgn.getD ((a : Int) - 1).toNat 0 = nodeNum M q a := by
    rw [hnum, nodeID, if_neg (by omega)]; congr 1; omega
  have eb : p.mlgn.getD ((b : Int) - 1).toNat 0 = nodeNum M q b := by
    rw [hnum, nodeID, if_neg (by omega)]; congr 1; omega
  rw [collapseNodes, hp]
  dsimp only
  rw [if_neg (by omega), if_neg (by omega), ea, eb, Int.toNat_natCast, Int.toNat_natCast]
  by_cases hgt : nodeNum M q a > nodeNum M q b
  · rw [if_pos hgt]
    obtain ⟨r1, r2⟩ := merge_num M q L nf a (nodeNum M q b) h' h1.1 h1.2 (ne_of_gt hgt)
    refine ⟨r1, fun x => ?_⟩
    dsimp only
    rw [r2, pairUp]
    dsimp only
    rw [min_eq_right (le_of_lt hgt)]
    by_cases hx : x = a
    · rw [if_pos hx, if_pos (Or.inl hx)]
    · by_cases hx' : x = b
      · rw [if_neg hx, if_pos (Or.inr hx'), hx']
      · rw [if_neg hx, if_neg (by tauto)]
  · rw [if_neg hgt]
    by_cases hlt : nodeNum M q b > nodeNum M q a
    · rw [if_pos hlt]
      obtain ⟨r1, r2⟩ := merge_num M q L nf b (nodeNum M q a) h' h2.1 h2.2 (ne_of_gt hlt)
      refine ⟨r1, fun x => ?_⟩
      dsimp only
      rw [r2, pairUp]
      dsimp only
      rw [min_eq_left (le_of_lt hlt)]
      by_cases hx : x = b
      · rw [if_pos hx, if_pos (Or.inr hx)]
      · by_cases hx' : x = a
        · rw [if_neg hx, if_pos (Or.inl hx'), hx']
        · rw [if_neg hx, if_neg (by tauto)]
    · rw [if_neg hlt]
      refine ⟨h', fun x => ?_⟩
      have he : nodeNum M q a = nodeNum M q b := by omega
      rw [pairUp]
      dsimp only
      rw [he, min_self]
      split
      · rename_i hx
        rcases hx with hx | hx
        · rw [hx, he]
        · rw [hx]
      · rfl

theorem digits_all (nf : Nat) (h1 : 1 ≤ nf) (h9 : nf ≤ 9) : (digitSet (getDirs nf)).length = nf ∧ (digitSet (getDirs nf)).getLast? = some nf := by
  have e : getDigits (getDirs nf) = downFrom nf := by
    rw [C35_digits, getDirs, getDirsLoop_eq, zero_add, one_mul, Nat.digits_ofDigits 10 (by decide)]
    · intro l hl; rw [downFrom_mem] at hl; omega
    · intro hne
      have := List.getLast_mem hne
      rw [downFrom_mem] at this
      omega
  unfold digitSet
  rw [e]
  interval_cases nf <;> decide +kernel

theorem makePeriodic_num (tol : K) (M : PatchModel K) (q L nf : Nat) (p : Nat × Nat) (h : HasPatch M q L nf) (hf1 : 1 ≤ nf) (hf9 : nf ≤ 9) (h1 : 1 ≤ p.1 ∧ p.1 ≤ L) (h2 : 1 ≤ p.2 ∧ p.2 ≤ L) :
    ∃ M', makePeriodic tol q (getDirs nf) M p = some M' ∧ HasPatch M' q L nf ∧ nodeNum M' q = pairUp (nodeNum M q) p := by
  have h' := h
  obtain ⟨pp, hp, hL, hf, hn⟩ := h
  obtain ⟨r1, r2⟩ := collapse_num M q L nf p h' h1 h2
  refine ⟨_, ?_, r1, funext r2⟩
  rw [makePeriodic, hp]
  dsimp only
  rw [if_pos (by rw [hf]; exact digits_all nf hf1 hf9)]

theorem periodic_all (tol : K) (L' : List (Nat × Nat)) (M : PatchModel K) (q L nf : Nat) (h : HasPatch M q L nf) (hf1 : 1 ≤ nf) (hf9 : nf ≤ 9) (hr : ∀ p ∈ L', (1 ≤ p.1 ∧ p.1 ≤ L) ∧ 1 ≤ p.2 ∧ p.2 ≤ L) :
    ∃ M', L'.foldlM (makePeriodic tol q (getDirs nf)) M = some M' ∧ HasPatch M' q L nf ∧ nodeNum M' q = pairAll (nodeNum M q) L' := by
  induction L' generalizing M with
  | nil => exact ⟨M, rfl, h, rfl⟩
  | cons p L' ih =>
    obtain ⟨M1, e1, e2, e3⟩ := makePeriodic_num tol M q L nf p h hf1 hf9 (hr p (by simp)).1 (hr p (by simp)).2
    obtain ⟨M2, f1, f2, f3⟩ := ih M1 e2 (fun p hp => hr p (by simp [hp]))
    refine ⟨M2, ?_, f2, ?_⟩
    · rw [List.foldlM_cons, e1]; exact f1
    · rw [f3, e3]; rfl

/-! ## Disjoint pairs -/

/-- Two pairs without a common node. -/
def Apart (p r : Nat × Nat) : Prop := p.1 ≠ r.1 ∧ p.1 ≠ r.2 ∧ p.2 ≠ r.1 ∧ p.2 ≠ r.2

theorem pairAll_apart (L : List (Nat × Nat)) (ν : Nat → Int) (h : L.Pairwise Apart) :
    (∀ p ∈ L, pairAll ν L p.1 = min (ν p.1) (ν p.2) ∧ pairAll ν L p.2 = min (ν p.1) (ν p.2)) ∧
    ∀ x, (∀ p ∈ L, x ≠ p.1 ∧ x ≠ p.2) → pairAll ν L x = ν x := by
  induction L generalizing ν with
  | nil => exact ⟨by simp, fun _ _ => rfl⟩
  | cons a L ih =>
    rw [List.pairwise_cons] at h
    obtain ⟨i1, i2⟩ := ih (pairUp ν a) h.2
    have e : ∀ x, pairAll ν (a :: L) x = pairAll (pairUp ν a) L x := fun x => rfl
    refine ⟨fun p hp => ?_, fun x hx => ?_⟩
    · rw [e, e]
      rw [List.mem_cons] at hp
      rcases hp with hp | hp
      · subst hp
        rw [i2 p.1 (fun r hr => ⟨(h.1 r hr).1, (h.1 r hr).2.1⟩), i2 p.2 (fun r hr => ⟨(h.1 r hr).2.2.1, (h.1 r hr).2.2.2⟩)]
        simp [pairUp]
      · have ha := h.1 p hp
        obtain ⟨j1, j2⟩ := i1 p hp
        have u1 : pairUp ν a p.1 = ν p.1 := by rw [pairUp, if_neg]; intro hc; rcases hc with hc | hc <;> [exact ha.1 hc.symm; exact ha.2.2.1 hc.symm]
        have u2 : pairUp ν a p.2 = ν p.2 := by rw [pairUp, if_neg]; intro hc; rcases hc with hc | hc <;> [exact ha.2.1 hc.symm; exact ha.2.2.2 hc.symm]
        rw [u1, u2] at j1 j2
        exact ⟨j1, j2⟩
    · rw [e, i2 x (fun p hp => hx p (by simp [hp])), pairUp, if_neg]
      have := hx a (by simp)
      tauto

/-! ## The calls -/

theorem callsI_eq (n1 c m : Nat) : callsI n1 c m = ((List.range c).map fun j => (m + n1*j, m + n1*j + n1 - 1), m + n1*c) := by
  induction c generalizing m with
  | zero => simp [callsI]
  | succ c ih =>
    rw [callsI, ih, List.range_succ_eq_map, List.map_cons, List.map_map]
    simp only [Prod.mk.injEq]
    refine ⟨?_, by ring⟩
    congr 1
    apply List.map_congr_left
    intro j _
    simp only [Function.comp_apply, Nat.succ_eq_add_one, Prod.mk.injEq]
    have : m + n1 + n1*j = m + n1*(j+1) := by ring
    rw [this]
    exact ⟨rfl, rfl⟩

theorem callsStep_eq (off c m : Nat) : callsStep off c m = ((List.range c).map fun i => (m + i, m + i + off), m + c) := by
  induction c generalizing m with
  | zero => simp [callsStep]
  | succ c ih =>
    rw [callsStep, ih, List.range_succ_eq_map, List.map_cons, List.map_map]
    simp only [Prod.mk.injEq]
    refine ⟨?_, by ring⟩
    congr 1
    apply List.map_congr_left
    intro j _
    simp only [Function.comp_apply, Nat.succ_eq_add_one, Prod.mk.injEq]
    omega

theorem callsOuter_eq (inner : Nat → List (Nat × Nat) × Nat) (inc s : Nat) (h : ∀ m, (inner m).2 + inc = m + s) (c m : Nat) :
    (callsOuter inner inc c m).1 = (List.range c).flatMap fun k => (inner (m + s*k)).1 := by
  induction c generalizing m with
  | zero => simp [callsOuter]
  | succ c ih =>
    rw [callsOuter, h, ih, List.range_succ_eq_map, List.flatMap_cons, List.flatMap_map]
    dsimp only
    congr 2
    funext k
    have : m + s + s*k = m + s*(k+1) := by ring
    rw [this]

end IFEM.ClosePatch
