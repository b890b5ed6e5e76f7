import Verif.Spec.SamPatch
import Verif.Lemmas.FE
import Verif.Props.Queries
import Mathlib.Tactic.Ring
/-! Tables built from patches: node and DOF tables. -/
namespace IFEM.Spec
open IFEM.Props
variable {K : Type}

/-! ## Node counts -/

/-- The count of the first entry for a node. -/
def firstCount (L : List (Int × Nat)) (n : Int) : Nat :=
  match L.find? fun q => decide (q.1 = n) with
  | some q => q.2
  | none => 0

theorem firstCount_cons (q : Int × Nat) (L : List (Int × Nat)) (n : Int) : firstCount (q :: L) n = if q.1 = n then q.2 else firstCount L n := by
  unfold firstCount
  by_cases h : q.1 = n
  · rw [List.find?_cons_of_pos (by simpa using h), if_pos h]
  · rw [List.find?_cons_of_neg (by simpa using h), if_neg h]

theorem countFold_spec (nnod : Nat) (L : List (Int × Nat)) (hpos : ∀ q ∈ L, 1 ≤ q.1 → q.1 ≤ nnod → 1 ≤ q.2) (a : List Nat × Nat) (hl : a.1.length = nnod) :
    (L.foldl (countStep nnod) a).1.length = nnod ∧
    (∀ i, i < nnod → (L.foldl (countStep nnod) a).1.getD i 0 = if a.1.getD i 0 = 0 then firstCount L ((i : Int) + 1) else a.1.getD i 0) ∧
    a.2 ≤ (L.foldl (countStep nnod) a).2 ∧
    ((L.foldl (countStep nnod) a).2 = a.2 ↔ ∀ q ∈ L, 1 ≤ q.1 → q.1 ≤ nnod →
      q.2 = if a.1.getD (q.1.toNat - 1) 0 = 0 then firstCount L q.1 else a.1.getD (q.1.toNat - 1) 0) := by
  induction L generalizing a with
  | nil =>
    refine ⟨hl, fun i _ => ?_, le_rfl, by simp⟩
    by_cases h : a.1.getD i 0 = 0
    · rw [if_pos h]; exact h
    · rw [if_neg h]; rfl
  | cons q L ih =>
    rw [List.foldl_cons]
    have hpos' : ∀ q ∈ L, 1 ≤ q.1 → q.1 ≤ nnod → 1 ≤ q.2 := fun x hx => hpos x (List.mem_cons_of_mem _ hx)
    by_cases hr : q.1 > 0 ∧ q.1 ≤ nnod
    · have hq1 : 1 ≤ q.2 := hpos q (by simp) hr.1 hr.2
      have hqi : (((q.1.toNat - 1 : Nat) : Int) + 1) = q.1 := by omega
      by_cases h0 : a.1.getD (q.1.toNat - 1) 0 = 0
      · have e : countStep nnod a q = (a.1.set (q.1.toNat - 1) q.2, a.2) := by
          unfold countStep; rw [if_pos hr]; dsimp only; rw [if_pos h0]
        rw [e]
        obtain ⟨i1, i2, i3, i4⟩ := ih hpos' (a.1.set (q.1.toNat - 1) q.2, a.2) (by simpa using hl)
        have hset : ∀ i, i < nnod → (a.1.set (q.1.toNat - 1) q.2).getD i 0 = if i = q.1.toNat - 1 then q.2 else a.1.getD i 0 := by
          intro i hi
          rw [List.getD_eq_getElem?_getD, List.getElem?_set]
          by_cases h : q.1.toNat - 1 = i
          · rw [if_pos h, if_pos (by omega), if_pos h.symm]; rfl
          · rw [if_neg h, if_neg (fun e => h e.symm), List.getD_eq_getElem?_getD]
        refine ⟨i1, fun i hi => ?_, i3, ?_⟩
        · rw [i2 i hi]; dsimp only
          rw [hset i hi, firstCount_cons]
          by_cases h : i = q.1.toNat - 1
          · subst h
            rw [if_pos rfl, if_neg (by omega), if_pos h0, if_pos (by omega)]
          · rw [if_neg h, if_neg (show ¬ q.1 = (i : Int) + 1 by omega)]
        · rw [i4]; dsimp only
          constructor
          · intro hh x hx h1 h2
            rcases List.mem_cons.mp hx with rfl | hx
            · rw [if_pos h0, firstCount_cons, if_pos rfl]
            · have := hh x hx h1 h2
              rw [hset _ (by omega)] at this
              rw [firstCount_cons]
              by_cases h : x.1.toNat - 1 = q.1.toNat - 1
              · rw [if_pos h, if_neg (by omega)] at this
                rw [h, if_pos h0, if_pos (by omega)]; exact this
              · rw [if_neg h] at this
                rw [if_neg (show ¬ q.1 = x.1 by omega)]; exact this
          · intro hh x hx h1 h2
            have := hh x (List.mem_cons_of_mem _ hx) h1 h2
            rw [firstCount_cons] at this
            rw [hset _ (by omega)]
            by_cases h : x.1.toNat - 1 = q.1.toNat - 1
            · rw [h, if_pos h0, if_pos (by omega)] at this
              rw [if_pos h, if_neg (by omega)]; exact this
            · rw [if_neg (show ¬ q.1 = x.1 by omega)] at this
              rw [if_neg h]; exact this
      · by_cases hne : a.1.getD (q.1.toNat - 1) 0 ≠ q.2
        · have e : countStep nnod a q = (a.1, a.2 + 1) := by
            unfold countStep; rw [if_pos hr]; dsimp only; rw [if_neg h0, if_pos hne]
          rw [e]
          obtain ⟨i1, i2, i3, i4⟩ := ih hpos' (a.1, a.2 + 1) hl
          dsimp only at i1 i2 i3 i4
          refine ⟨i1, fun i hi => ?_, by omega, ?_⟩
          · rw [i2 i hi]
            by_cases h : a.1.getD i 0 = 0
            · rw [if_pos h, if_pos h, firstCount_cons, if_neg]
              intro e; apply h0; rw [show q.1.toNat - 1 = i by omega]; exact h
            · rw [if_neg h, if_neg h]
          · constructor
            · intro e; omega
            · intro hh
              have := hh q (by simp) (by omega) hr.2
              rw [if_neg h0] at this
              exact absurd this.symm hne
        · have e : countStep nnod a q = a := by
            unfold countStep; rw [if_pos hr]; dsimp only; rw [if_neg h0, if_neg hne]
          rw [e]
          obtain ⟨i1, i2, i3, i4⟩ := ih hpos' a hl
          refine ⟨i1, fun i hi => ?_, i3, ?_⟩
          · rw [i2 i hi]
            by_cases h : a.1.getD i 0 = 0
            · rw [if_pos h, if_pos h, firstCount_cons, if_neg]
              intro e; apply h0; rw [show q.1.toNat - 1 = i by omega]; exact h
            · rw [if_neg h, if_neg h]
          · rw [i4]
            push Not at hne
            have key : ∀ x : Int × Nat, 1 ≤ x.1 → (if a.1.getD (x.1.toNat - 1) 0 = 0 then firstCount (q :: L) x.1 else a.1.getD (x.1.toNat - 1) 0) =
                if a.1.getD (x.1.toNat - 1) 0 = 0 then firstCount L x.1 else a.1.getD (x.1.toNat - 1) 0 := by
              intro x h1
              by_cases h : a.1.getD (x.1.toNat - 1) 0 = 0
              · rw [if_pos h, if_pos h, firstCount_cons, if_neg]
                intro e; apply h0; rw [e]; exact h
              · rw [if_neg h, if_neg h]
            constructor
            · intro hh x hx h1 h2
              rcases List.mem_cons.mp hx with rfl | hx
              · rw [if_neg h0]; exact hne.symm
              · rw [key x h1]; exact hh x hx h1 h2
            · intro hh x hx h1 h2
              rw [← key x h1]; exact hh x (List.mem_cons_of_mem _ hx) h1 h2
    · have e : countStep nnod a q = a := by unfold countStep; rw [if_neg hr]
      rw [e]
      obtain ⟨i1, i2, i3, i4⟩ := ih hpos' a hl
      refine ⟨i1, fun i hi => ?_, i3, ?_⟩
      · rw [i2 i hi, firstCount_cons, if_neg (show ¬ q.1 = (i : Int) + 1 by omega)]
      · rw [i4]
        constructor
        · intro hh x hx h1 h2
          rcases List.mem_cons.mp hx with rfl | hx
          · omega
          · rw [firstCount_cons, if_neg (show ¬ q.1 = x.1 by intro e; omega)]; exact hh x hx h1 h2
        · intro hh x hx h1 h2
          have := hh x (List.mem_cons_of_mem _ hx) h1 h2
          rw [firstCount_cons, if_neg (show ¬ q.1 = x.1 by intro e; omega)] at this; exact this

/-! ## Accumulation -/

theorem accumulate_length (m : Int) (cs : List Nat) : (accumulate m cs).length = cs.length + 1 := by
  induction cs generalizing m with
  | nil => rfl
  | cons c cs ih => rw [accumulate, List.length_cons, ih]; rfl

theorem accumulate_get (m : Int) (cs : List Nat) (i : Nat) (hi : i ≤ cs.length) : (accumulate m cs)[i]? = some (m + (cs.take i).sum) := by
  induction cs generalizing m i with
  | nil =>
    have : i = 0 := by simpa using hi
    subst this; simp [accumulate]
  | cons c cs ih =>
    cases i with
    | zero => simp [accumulate]
    | succ i =>
      rw [accumulate, List.getElem?_cons_succ, ih (m + c) i (by simpa using hi), List.take_succ_cons, List.sum_cons]
      push_cast; congr 1; ring

/-- First DOF of node `n` for the given numbers of DOFs per node. -/
def firstOf (cs : List Nat) (n : Nat) : Nat := 1 + (cs.take (n-1)).sum

theorem accumulate_at (cs : List Nat) (n : Nat) (h1 : 1 ≤ n) (h2 : n ≤ cs.length + 1) : at1? (accumulate 1 cs) n = some (firstOf cs n : Int) := by
  rw [at1?_nat _ _ h1, accumulate_get 1 cs (n-1) (by omega), firstOf]
  push_cast; rfl

theorem firstOf_succ (cs : List Nat) (n : Nat) (h1 : 1 ≤ n) (h2 : n ≤ cs.length) : firstOf cs (n+1) = firstOf cs n + cs.getD (n-1) 0 := by
  unfold firstOf
  have : n + 1 - 1 = (n - 1) + 1 := by omega
  rw [this, List.take_succ_eq_append_getElem (by omega), List.sum_append, List.getD_eq_getElem?_getD, List.getElem?_eq_getElem (show n - 1 < cs.length by omega)]
  simp; omega

theorem firstOf_mono (cs : List Nat) {m n : Nat} (h : m ≤ n) : firstOf cs m ≤ firstOf cs n :=
  firstDof_mono (⟨cs, [], [], []⟩ : FEModel Nat) h

theorem firstOf_last (cs : List Nat) : firstOf cs (cs.length + 1) = cs.sum + 1 := firstDof_last (⟨cs, [], [], []⟩ : FEModel Nat)

/-- The DOFs of a list of nodes: distinct pairs have distinct numbers. -/
theorem dof_inj (cs : List Nat) (n c n' c' : Nat) (h1 : 1 ≤ n ∧ n ≤ cs.length ∧ 1 ≤ c ∧ c ≤ cs.getD (n-1) 0) (h2 : 1 ≤ n' ∧ n' ≤ cs.length ∧ 1 ≤ c' ∧ c' ≤ cs.getD (n'-1) 0)
    (h : firstOf cs n + c = firstOf cs n' + c') : n = n' ∧ c = c' := by
  have e1 := firstOf_succ cs n h1.1 h1.2.1
  have e2 := firstOf_succ cs n' h2.1 h2.2.1
  rcases Nat.lt_trichotomy n n' with hlt | heq | hlt
  · have := firstOf_mono cs (show n + 1 ≤ n' by omega); omega
  · subst heq; exact ⟨rfl, by omega⟩
  · have := firstOf_mono cs (show n' + 1 ≤ n by omega); omega

theorem dof_le (cs : List Nat) (n c : Nat) (h1 : 1 ≤ n ∧ n ≤ cs.length ∧ 1 ≤ c ∧ c ≤ cs.getD (n-1) 0) : 1 ≤ firstOf cs n ∧ firstOf cs n + c - 1 ≤ cs.sum := by
  have e1 := firstOf_succ cs n h1.1 h1.2.1
  have := firstOf_mono cs (show n + 1 ≤ cs.length + 1 by omega)
  rw [firstOf_last] at this
  have : 1 ≤ firstOf cs n := by unfold firstOf; omega
  omega

theorem dof_surj (cs : List Nat) (d : Nat) (h1 : 1 ≤ d) (h2 : d ≤ cs.sum) :
    ∃ n c, (1 ≤ n ∧ n ≤ cs.length ∧ 1 ≤ c ∧ c ≤ cs.getD (n-1) 0) ∧ d = firstOf cs n + c - 1 := by
  obtain ⟨n, a1, a2, a3, a4⟩ := exists_node (⟨cs, [], [], []⟩ : FEModel Nat) d h1 h2
  have a3' : firstOf cs n ≤ d := a3
  have a4' : d < firstOf cs (n+1) := a4
  have a2' : n ≤ cs.length := a2
  rw [firstOf_succ cs n a1 a2'] at a4'
  exact ⟨n, d - firstOf cs n + 1, ⟨a1, a2', by omega, by omega⟩, by omega⟩

/-! ## Boundary codes -/

/-- Value in a DOF array for component `c` of node `n`. -/
def dofVal (cs : List Nat) (msc : List Int) (n c : Nat) : Int := msc.getD (firstOf cs n + c - 2) 0

theorem applyCode_spec (cs : List Nat) (msc : List Int) (hl : msc.length = cs.sum) (n : Nat) (hn : 1 ≤ n ∧ n ≤ cs.length) (c : Nat × Nat) (hc : 1 ≤ c.1) :
    ∃ msc', applyCode (firstOf cs n) (cs.getD (n-1) 0 : Nat) msc c = some msc' ∧ msc'.length = cs.sum ∧
      ∀ n' c', (1 ≤ n' ∧ n' ≤ cs.length ∧ 1 ≤ c' ∧ c' ≤ cs.getD (n'-1) 0) → dofVal cs msc' n' c' = dofVal cs msc n' c' * if n' = n ∧ c' = c.1 then (c.2 : Int) else 1 := by
  unfold applyCode
  by_cases h : ((cs.getD (n-1) 0 : Nat) : Int) > (c.1 : Int) - 1
  · rw [if_pos h]
    have hv : 1 ≤ n ∧ n ≤ cs.length ∧ 1 ≤ c.1 ∧ c.1 ≤ cs.getD (n-1) 0 := ⟨hn.1, hn.2, hc, by omega⟩
    obtain ⟨d1, d2⟩ := dof_le cs n c.1 hv
    have hpos : (firstOf cs n : Int) + c.1 - 1 = ((firstOf cs n + c.1 - 1 : Nat) : Int) := by omega
    have hlt : firstOf cs n + c.1 - 2 < msc.length := by omega
    rw [hpos, at1?_nat _ _ (by omega), show firstOf cs n + c.1 - 1 - 1 = firstOf cs n + c.1 - 2 by omega, List.getElem?_eq_getElem hlt]
    simp only [Option.bind_eq_bind, Option.bind_some]
    unfold set1? set0?
    rw [if_pos (by omega)]
    refine ⟨_, rfl, by simpa using hl, ?_⟩
    intro n' c' hv'
    rw [show (((firstOf cs n + c.1 - 1 : Nat) : Int) - 1).toNat = firstOf cs n + c.1 - 2 by omega]
    unfold dofVal
    obtain ⟨d1', d2'⟩ := dof_le cs n' c' hv'
    rw [List.getD_eq_getElem?_getD, List.getElem?_set]
    by_cases he : firstOf cs n + c.1 - 2 = firstOf cs n' + c' - 2
    · obtain ⟨rfl, rfl⟩ := dof_inj cs n c.1 n' c' hv hv' (by omega)
      rw [if_pos rfl, if_pos hlt, if_pos ⟨rfl, rfl⟩, List.getD_eq_getElem?_getD, List.getElem?_eq_getElem hlt]; rfl
    · rw [if_neg he, if_neg, mul_one, List.getD_eq_getElem?_getD]
      rintro ⟨rfl, rfl⟩; exact he rfl
  · rw [if_neg h]
    refine ⟨_, rfl, hl, ?_⟩
    intro n' c' hv'
    rw [if_neg, mul_one]
    rintro ⟨rfl, rfl⟩
    omega

/-- The factor for component `c` in a list of codes. -/
def codeFactor (l : List (Nat × Nat)) (c : Nat) : Int := (l.map fun q => if c = q.1 then (q.2 : Int) else 1).prod

theorem applyCodes_spec (cs : List Nat) (l : List (Nat × Nat)) (hc : ∀ q ∈ l, 1 ≤ q.1) (msc : List Int) (hl : msc.length = cs.sum) (n : Nat) (hn : 1 ≤ n ∧ n ≤ cs.length) :
    ∃ msc', l.foldlM (applyCode (firstOf cs n) (cs.getD (n-1) 0 : Nat)) msc = some msc' ∧ msc'.length = cs.sum ∧
      ∀ n' c', (1 ≤ n' ∧ n' ≤ cs.length ∧ 1 ≤ c' ∧ c' ≤ cs.getD (n'-1) 0) → dofVal cs msc' n' c' = dofVal cs msc n' c' * if n' = n then codeFactor l c' else 1 := by
  induction l generalizing msc with
  | nil => exact ⟨msc, rfl, hl, fun n' c' _ => by simp [codeFactor]⟩
  | cons q l ih =>
    obtain ⟨m1, e1, l1, v1⟩ := applyCode_spec cs msc hl n hn q (hc q (by simp))
    obtain ⟨m2, e2, l2, v2⟩ := ih (fun x hx => hc x (List.mem_cons_of_mem _ hx)) m1 l1
    refine ⟨m2, by rw [List.foldlM_cons, e1]; exact e2, l2, ?_⟩
    intro n' c' hv
    rw [v2 n' c' hv, v1 n' c' hv, mul_assoc]
    congr 1
    unfold codeFactor
    by_cases h : n' = n
    · simp [h]
    · simp [h]

theorem applyBc_spec (cs : List Nat) (b : Bc) (msc : List Int) (hl : msc.length = cs.sum) (hn : 1 ≤ b.node ∧ b.node ≤ cs.length) :
    ∃ msc', applyBc (accumulate 1 cs) msc b = some msc' ∧ msc'.length = cs.sum ∧
      ∀ n' c', (1 ≤ n' ∧ n' ≤ cs.length ∧ 1 ≤ c' ∧ c' ≤ cs.getD (n'-1) 0) → dofVal cs msc' n' c' = dofVal cs msc n' c' * if (n' : Int) = b.node then (bcCode b c' : Int) else 1 := by
  obtain ⟨n, hbn⟩ : ∃ n : Nat, b.node = n := ⟨b.node.toNat, by omega⟩
  have hn' : 1 ≤ n ∧ n ≤ cs.length := by omega
  unfold applyBc
  have e2 : ((n : Int) + 1) = ((n + 1 : Nat) : Int) := by push_cast; rfl
  rw [hbn, accumulate_at cs n hn'.1 (by omega), e2, accumulate_at cs (n+1) (by omega) (by omega)]
  simp only [Option.bind_eq_bind, Option.bind_some]
  rw [firstOf_succ cs n hn'.1 hn'.2, show ((firstOf cs n + cs.getD (n-1) 0 : Nat) : Int) - firstOf cs n = (cs.getD (n-1) 0 : Nat) by push_cast; ring]
  obtain ⟨m, e, l, v⟩ := applyCodes_spec cs [(1, b.CX), (2, b.CY), (3, b.CZ), (4, b.RX), (5, b.RY), (6, b.RZ)] (by simp) msc hl n hn'
  refine ⟨m, e, l, ?_⟩
  intro n' c' hv
  rw [v n' c' hv]
  congr 1
  by_cases h : n' = n
  · rw [if_pos h, if_pos (by rw [h])]
    unfold codeFactor bcCode
    have := hv.2.2.1
    split
    · simp
    · simp
    · simp
    · simp
    · simp
    · simp
    · rename_i a1 a2 a3 a4 a5 a6
      simp only [List.map_cons, List.map_nil, if_neg (show ¬ c' = 1 from a1), if_neg (show ¬ c' = 2 from a2), if_neg (show ¬ c' = 3 from a3),
        if_neg (show ¬ c' = 4 from a4), if_neg (show ¬ c' = 5 from a5), if_neg (show ¬ c' = 6 from a6)]
      simp
  · rw [if_neg h, if_neg (by omega)]

theorem applyBcs_spec (cs : List Nat) (bcs : List Bc) (h01 : ∀ b ∈ bcs, ∀ c, bcCode b c = 0 ∨ bcCode b c = 1) (hn : ∀ b ∈ bcs, 1 ≤ b.node ∧ b.node ≤ cs.length)
    (msc : List Int) (hl : msc.length = cs.sum) (Q : Nat → Nat → Prop)
    (hQ : ∀ n c, (1 ≤ n ∧ n ≤ cs.length ∧ 1 ≤ c ∧ c ≤ cs.getD (n-1) 0) → (Q n c ∧ dofVal cs msc n c = 0) ∨ (¬ Q n c ∧ dofVal cs msc n c = 1)) :
    ∃ msc', bcs.foldlM (applyBc (accumulate 1 cs)) msc = some msc' ∧ msc'.length = cs.sum ∧
      ∀ n c, (1 ≤ n ∧ n ≤ cs.length ∧ 1 ≤ c ∧ c ≤ cs.getD (n-1) 0) →
        ((Q n c ∨ FixedDof bcs n c) ∧ dofVal cs msc' n c = 0) ∨ (¬ (Q n c ∨ FixedDof bcs n c) ∧ dofVal cs msc' n c = 1) := by
  induction bcs generalizing msc Q with
  | nil => exact ⟨msc, rfl, hl, fun n c hv => by simpa [FixedDof] using hQ n c hv⟩
  | cons b bcs ih =>
    obtain ⟨m1, e1, l1, v1⟩ := applyBc_spec cs b msc hl (hn b (by simp))
    obtain ⟨m2, e2, l2, v2⟩ := ih (fun x hx => h01 x (List.mem_cons_of_mem _ hx)) (fun x hx => hn x (List.mem_cons_of_mem _ hx)) m1 l1
      (fun n c => Q n c ∨ (b.node = (n : Int) ∧ bcCode b c = 0)) (by
        intro n c hv
        have hv1 := v1 n c hv
        rcases hQ n c hv with ⟨q, e⟩ | ⟨q, e⟩
        · exact Or.inl ⟨Or.inl q, by rw [hv1, e, zero_mul]⟩
        · rw [e, one_mul] at hv1
          by_cases hnode : (n : Int) = b.node
          · rw [if_pos hnode] at hv1
            rcases h01 b (by simp) c with hc | hc
            · exact Or.inl ⟨Or.inr ⟨hnode.symm, hc⟩, by rw [hv1, hc]; rfl⟩
            · refine Or.inr ⟨?_, by rw [hv1, hc]; rfl⟩
              rintro (h | ⟨-, h⟩)
              · exact q h
              · omega
          · rw [if_neg hnode] at hv1
            refine Or.inr ⟨?_, hv1⟩
            rintro (h | ⟨h, -⟩)
            · exact q h
            · exact hnode h.symm)
    refine ⟨m2, by rw [List.foldlM_cons, e1]; exact e2, l2, ?_⟩
    intro n c hv
    have hfix : (Q n c ∨ FixedDof (b :: bcs) n c) ↔ ((Q n c ∨ (b.node = (n : Int) ∧ bcCode b c = 0)) ∨ FixedDof bcs n c) := by
      unfold FixedDof
      simp only [List.mem_cons, exists_eq_or_imp, or_assoc]
    rw [hfix]
    exact v2 n c hv

end IFEM.Spec
