import Verif.Model.SamQuery
import Verif.Lemmas.FEExpand
import Verif.Props.Assembly
/-!
# C04: nodes own contiguous, disjoint DOF ranges; DOF ↔ (node, local DOF)
-/
namespace IFEM.Props
open IFEM.Spec IFEM.Sam
variable {R : Type}

theorem take_sum_mono (l : List Nat) (a b : Nat) (h : a ≤ b) : (l.take a).sum ≤ (l.take b).sum := by
  induction l generalizing a b with
  | nil => simp
  | cons x xs ih =>
    cases a with
    | zero => simp
    | succ a =>
      cases b with
      | zero => omega
      | succ b => simpa using ih a b (by omega)

theorem firstDof_mono (D : FEModel R) {m n : Nat} (h : m ≤ n) : D.firstDof m ≤ D.firstDof n := by
  unfold FEModel.firstDof
  have := take_sum_mono D.nndof (m-1) (n-1) (by omega)
  omega

theorem firstDof_last (D : FEModel R) : D.firstDof (D.nndof.length + 1) = D.nndof.sum + 1 := by
  unfold FEModel.firstDof
  simp; omega

/-- Every DOF number belongs to a node. -/
theorem exists_node (D : FEModel R) (d : Nat) (h1 : 1 ≤ d) (h2 : d ≤ D.nndof.sum) :
    ∃ n, 1 ≤ n ∧ n ≤ D.nndof.length ∧ D.firstDof n ≤ d ∧ d < D.firstDof (n+1) := by
  have key : ∀ k, k ≤ D.nndof.length → d < D.firstDof (k+1) →
      ∃ n, 1 ≤ n ∧ n ≤ D.nndof.length ∧ D.firstDof n ≤ d ∧ d < D.firstDof (n+1) := by
    intro k
    induction k with
    | zero => intro _ h; simp [FEModel.firstDof] at h; omega
    | succ k ih =>
      intro hk h
      by_cases hc : d < D.firstDof (k+1)
      · exact ih (by omega) hc
      · exact ⟨k+1, by omega, hk, by omega, h⟩
  exact key D.nndof.length le_rfl (by rw [firstDof_last]; omega)

theorem findNode_eq {s : Sam R} {D : FEModel R}
    (hm : ∀ n, 1 ≤ n → n ≤ D.nndof.length + 1 → at1? s.madof n = some (D.firstDof n : Int))
    {d n : Nat} (hn : n ≤ D.nndof.length) (h1 : D.firstDof n ≤ d) (h2 : d < D.firstDof (n+1))
    (m k : Nat) (hk : 1 ≤ k) (hkn : k ≤ n) (hnm : n < k + m) :
    findNode s.madof d (List.range' k m) = some ((n : Int), (d : Int) - D.firstDof n + 1) := by
  induction m generalizing k with
  | zero => omega
  | succ m ih =>
    rw [List.range'_succ, findNode]
    have e1 : at0? s.madof (k : Int) = some (D.firstDof (k+1) : Int) := by
      rw [at0?_succ]; exact_mod_cast hm (k+1) (by omega) (by omega)
    rw [e1]
    simp only [Option.bind_eq_bind, Option.bind_some]
    by_cases hc : k = n
    · subst hc
      rw [if_pos (by exact_mod_cast h2), at0?_succ, sub_add_cancel, hm k (by omega) (by omega)]
      rfl
    · have : D.firstDof (k+1) ≤ d := le_trans (firstDof_mono D (by omega)) h1
      rw [if_neg (by push Not; exact_mod_cast this)]
      exact ih (k+1) (by omega) (by omega) (by omega)

theorem findNode_none {s : Sam R} {D : FEModel R}
    (hm : ∀ n, 1 ≤ n → n ≤ D.nndof.length + 1 → at1? s.madof n = some (D.firstDof n : Int))
    {d : Int} (h1 : (D.nndof.sum : Int) < d)
    (m k : Nat) (hk : 1 ≤ k) (hnm : k + m ≤ D.nndof.length + 1) :
    findNode s.madof d (List.range' k m) = some (0, 0) := by
  induction m generalizing k with
  | zero => rfl
  | succ m ih =>
    rw [List.range'_succ, findNode]
    have e1 : at0? s.madof (k : Int) = some (D.firstDof (k+1) : Int) := by
      rw [at0?_succ]; exact_mod_cast hm (k+1) (by omega) (by omega)
    rw [e1]
    simp only [Option.bind_eq_bind, Option.bind_some]
    have := firstDof_le D (k+1)
    rw [if_neg (by omega)]
    exact ih (k+1) (by omega) (by omega)

/-- **C04** (disjoint cover). Every DOF `1..ndof` belongs to exactly one (node, local DOF) pair,
and `getNodeAndLocalDof` returns that pair; `getNodeDOFs` returns the node's first and last DOF;
a number above `ndof` gives `(0,0)`. -/
theorem C04_node_and_local_dof {s0 s : Sam R} {D : FEModel R} (hp : Packs s0 D) (hv : D.Valid)
    (h : s0.initSystemEquations = some (s, true)) :
    (∀ d : Nat, 1 ≤ d → d ≤ s0.ndof → ∃! p : Nat × Nat,
      1 ≤ p.1 ∧ p.1 ≤ s0.nnod ∧ 1 ≤ p.2 ∧ p.2 ≤ D.nndof.getD (p.1-1) 0 ∧ d = D.firstDof p.1 + p.2 - 1) ∧
    (∀ n l : Nat, 1 ≤ n → n ≤ s0.nnod → 1 ≤ l → l ≤ D.nndof.getD (n-1) 0 →
      s.getNodeAndLocalDof ((D.firstDof n + l - 1 : Nat) : Int) false = some ((n : Int), (l : Int))) ∧
    (∀ n : Nat, 1 ≤ n → n ≤ s0.nnod →
      s.getNodeDOFs n = some ((D.firstDof n : Int), (D.firstDof n : Int) + D.nndof.getD (n-1) 0 - 1)) ∧
    (∀ d : Int, (s0.ndof : Int) < d → s.getNodeAndLocalDof d false = some (0, 0)) := by
  have hr := ready_of_init hp hv h
  have hnn := hp.nnod
  have hnd : s0.ndof = D.nndof.sum := by rw [hp.ndof, hv.ndof]
  refine ⟨?_, ?_, ?_, ?_⟩
  · intro d h1 h2
    obtain ⟨n, a1, a2, a3, a4⟩ := exists_node D d h1 (by omega)
    have hs := firstDof_succ D a1 a2
    refine ⟨(n, d - D.firstDof n + 1), ⟨a1, by omega, by simp, ?_, ?_⟩, ?_⟩
    · simp only; omega
    · simp only; omega
    · rintro ⟨n', l'⟩ ⟨b1, b2, b3, b4, b5⟩
      simp only at b1 b2 b3 b4 b5
      have hs' := firstDof_succ D b1 (by omega)
      have hnn' : n' = n := by
        rcases Nat.lt_trichotomy n' n with hlt | heq | hlt
        · have := firstDof_mono D (show n'+1 ≤ n by omega); omega
        · exact heq
        · have := firstDof_mono D (show n+1 ≤ n' by omega); omega
      subst hnn'
      have : l' = d - D.firstDof n' + 1 := by omega
      rw [this]
  · intro n l h1 h2 h3 h4
    have hs := firstDof_succ D h1 (by omega)
    unfold getNodeAndLocalDof
    rw [if_neg (by simp), hr.nnod]
    rw [findNode_eq hr.madof (n := n) (by omega) (by omega) (by omega) _ _ le_rfl h1 (by omega)]
    congr 2
    omega
  · intro n h1 h2
    unfold getNodeDOFs
    have := hr.nnod
    rw [if_neg (by omega), at0?_succ, sub_add_cancel, hr.madof n h1 (by omega), at0?_succ]
    have h3 := hr.madof (n+1) (by omega) (by omega)
    push_cast at h3
    rw [h3]
    simp [firstDof_succ D h1 (show n ≤ D.nndof.length by omega)]
  · intro d hd
    unfold getNodeAndLocalDof
    rw [if_neg (by simp), hr.nnod]
    exact findNode_none hr.madof (by omega) _ _ le_rfl (by omega)

/-- **C04, finding F1**. With `eqno = true` the function returns the (node, local DOF) pair of the
DOF *preceding* the one that owns the equation: the position found by `std::find` is 0-based. -/
theorem C04_eqno_off_by_one {s0 s : Sam R} {D : FEModel R} (hp : Packs s0 D) (hv : D.Valid)
    (h : s0.initSystemEquations = some (s, true)) (d : Nat) (hd : D.Free d) (r : Int) (hr : EqnOf s d r) :
    s.getNodeAndLocalDof r true = s.getNodeAndLocalDof ((d : Int) - 1) false := by
  have hrd := ready_of_init hp hv h
  have hd1 := hd.1
  rw [EqnOf, at1?_nat _ _ hd1] at hr
  have hpos : 1 ≤ r := by
    obtain ⟨e, h1, h2, -⟩ := hrd.free d hd
    rw [at1?_nat _ _ hd1, hr] at h1
    cases h1; exact h2
  have hfind : s.meqn.findIdx? (· = r) = some (d-1) := by
    rw [List.findIdx?_eq_some_iff_getElem]
    have hlt := (List.getElem?_eq_some_iff.1 hr).1
    refine ⟨hlt, by simpa using (List.getElem?_eq_some_iff.1 hr).2, ?_⟩
    intro j hj
    simp only [decide_eq_true_eq]
    intro he
    have hjl : j < s.meqn.length := by omega
    have hjd : j < D.status.length := by have := hrd.len; omega
    rcases dof_cases D hv (d := j+1) (by omega) (by omega) with hc | ⟨k, c, hc1, hc2⟩ | ⟨hc1, hc2⟩
    · have := hrd.inj (j+1) d r hc hd (by rw [at1?_nat _ _ (by omega)]; simp [hjl, he])
        (by rw [at1?_nat _ _ hd1]; exact hr)
      omega
    · have := hrd.slave k c hc1
      rw [hc2, at1?_nat _ _ (by omega)] at this
      simp [hjl, he] at this; omega
    · have := hrd.fixed _ hc1 hc2
      rw [at1?_nat _ _ (by omega)] at this
      simp [hjl, he] at this; omega
  unfold getNodeAndLocalDof
  rw [if_pos rfl, hfind, if_neg (by simp)]
  simp only
  congr 1
  omega

/-- A concrete wrong answer: the first DOF of node 1 owns equation 3 of the example, the answer is local DOF 0. -/
theorem C04_eqno_wrong_witness : ∃ s, exampleTables.initSystemEquations = some (s, true) ∧
    EqnOf s 1 3 ∧ s.getNodeAndLocalDof 3 true = some (1, 0) ∧
    EqnOf s 3 1 ∧ s.getNodeAndLocalDof 1 true = some (1, 2) := by
  refine ⟨_, rfl, ?_⟩
  unfold EqnOf
  decide

/-- **C04** (equations). `getEquation` returns the equation number of a free DOF and zero for a suppressed one,
-1 for an illegal node or local DOF below one, -2 for a local DOF above the node's number of DOFs. -/
theorem C04_get_equation {s0 s : Sam R} {D : FEModel R} (hp : Packs s0 D) (hv : D.Valid)
    (h : s0.initSystemEquations = some (s, true)) :
    (∀ n l : Nat, 1 ≤ n → n ≤ s0.nnod → 1 ≤ l → l ≤ D.nndof.getD (n-1) 0 →
      (∀ r, D.Free (D.firstDof n + l - 1) → EqnOf s (D.firstDof n + l - 1) r → s.getEquation n l = some r) ∧
      (D.Suppressed (D.firstDof n + l - 1) → s.getEquation n l = some 0)) ∧
    (∀ n l : Int, n < 1 ∨ (s0.nnod : Int) < n ∨ l < 1 → s.getEquation n l = some (-1)) ∧
    (∀ n l : Nat, 1 ≤ n → n ≤ s0.nnod → D.nndof.getD (n-1) 0 < l → s.getEquation n l = some (-2)) := by
  have hr := ready_of_init hp hv h
  have hnn := hr.nnod
  have hnn' := hp.nnod
  have pre : ∀ n : Nat, 1 ≤ n → n ≤ s0.nnod → at0? s.madof ((n:Int)-1) = some (D.firstDof n : Int) ∧
      at0? s.madof (n:Int) = some ((D.firstDof n + D.nndof.getD (n-1) 0 : Nat) : Int) := by
    intro n h1 h2
    constructor
    · rw [at0?_succ, sub_add_cancel, hr.madof n h1 (by omega)]
    · rw [at0?_succ, ← firstDof_succ D h1 (by omega)]
      exact_mod_cast hr.madof (n+1) (by omega) (by omega)
  refine ⟨?_, ?_, ?_⟩
  · intro n l h1 h2 h3 h4
    obtain ⟨p1, p2⟩ := pre n h1 h2
    have hone : 1 ≤ D.firstDof n := by unfold FEModel.firstDof; omega
    have hcast : ((D.firstDof n : Int) + (l:Int) - 1) = ((D.firstDof n + l - 1 : Nat) : Int) := by omega
    have core : ∀ e, at1? s.meqn ((D.firstDof n + l - 1 : Nat) : Int) = some e →
        s.getEquation n l = some (if e > 0 then e else 0) := by
      intro e he
      unfold getEquation
      rw [if_neg (by omega), p1, p2]
      simp only [Option.bind_eq_bind, Option.bind_some]
      rw [if_neg (by omega), hcast, at0?_succ, sub_add_cancel, he]
      rfl
    constructor
    · intro r hf he
      have hpos := (eqv_free hr hf)
      rw [core r he]
      rw [EqnOf, hpos.1] at he
      have : r = eqv s (D.firstDof n + l - 1) := (Option.some.inj he).symm
      rw [if_pos (by omega)]
    · intro hs
      have hlen := (List.getElem?_eq_some_iff.1 hs.2).1
      rcases dof_cases D hv (d := D.firstDof n + l - 1) hs.1 (by omega) with hc | ⟨k, c, hc1, hc2⟩ | ⟨hc1, hc2⟩
      · rcases hc.2 with h' | h' <;> (rw [hs.2] at h'; simp at h')
      · have hsl := hr.slave k c hc1
        rw [hc2] at hsl
        rw [core _ hsl, if_neg (by omega)]
      · rw [core _ (hr.fixed _ hc1 hc2)]; rfl
  · intro n l hc
    unfold getEquation
    rw [if_pos (by omega)]
  · intro n l h1 h2 h3
    obtain ⟨p1, p2⟩ := pre n h1 h2
    unfold getEquation
    by_cases hl : l = 0
    · omega
    · rw [if_neg (by omega), p1, p2]
      simp only [Option.bind_eq_bind, Option.bind_some]
      rw [if_pos (by push_cast; omega)]
      rfl

/-- **C04** (DOF values), for all but the last DOF: `getDofVal` returns the value of the given DOF.
The full property would include the last DOF; the code compares `idof < ndof` instead of `idof <= ndof`
(finding F2, next theorem). -/
theorem C04_dof_value_partial [CommRing R] {s0 s : Sam R} {D : FEModel R} (hp : Packs s0 D) (hv : D.Valid)
    (h : s0.initSystemEquations = some (s, true)) (u : List R) (hu : u.length = s0.ndof)
    (n l : Nat) (h1 : 1 ≤ n) (h2 : n ≤ s0.nnod) (h3 : 1 ≤ l) (h4 : l ≤ D.nndof.getD (n-1) 0)
    (hlast : D.firstDof n + l - 1 ≠ s0.ndof) :
    s.getDofVal u n l = some (vval u ((D.firstDof n + l - 1 : Nat) : Int)) := by
  have hr := ready_of_init hp hv h
  have hnn := hr.nnod
  have hnn' := hp.nnod
  have hone : 1 ≤ D.firstDof n := by unfold FEModel.firstDof; omega
  have hsucc := firstDof_succ D h1 (show n ≤ D.nndof.length by omega)
  have hle := firstDof_le D (n+1)
  have hnd : s0.ndof = D.nndof.sum := by rw [hp.ndof, hv.ndof]
  unfold getDofVal
  rw [if_neg (by omega), at0?_succ, sub_add_cancel, hr.madof n h1 (by omega), at0?_succ]
  have h3' := hr.madof (n+1) (by omega) (by omega)
  push_cast at h3'
  rw [h3']
  simp only [Option.bind_eq_bind, Option.bind_some]
  rw [if_pos (by rw [hu]; omega)]
  unfold vval at1?
  have hcast : ((D.firstDof n : Int) + (l:Int) - 1 - 1) = ((D.firstDof n + l - 1 : Nat) : Int) - 1 := by omega
  rw [hcast]
  obtain ⟨x, hx, -⟩ := at0?_some_of_bounds (a := u) (i := ((D.firstDof n + l - 1 : Nat) : Int) - 1) (by omega) (by omega)
  rw [hx]; rfl

/-- **C04, finding F2**. For the last DOF of the model `getDofVal` returns zero, whatever the value is. -/
theorem C04_dof_value_last_wrong [CommRing R] {s0 s : Sam R} {D : FEModel R} (hp : Packs s0 D) (hv : D.Valid)
    (h : s0.initSystemEquations = some (s, true)) (u : List R) (hu : u.length = s0.ndof)
    (n l : Nat) (h1 : 1 ≤ n) (h2 : n ≤ s0.nnod) (h3 : 1 ≤ l) (h4 : l ≤ D.nndof.getD (n-1) 0)
    (hlast : D.firstDof n + l - 1 = s0.ndof) :
    s.getDofVal u n l = some 0 := by
  have hr := ready_of_init hp hv h
  have hnn := hr.nnod
  have hnn' := hp.nnod
  unfold getDofVal
  rw [if_neg (by omega), at0?_succ, sub_add_cancel, hr.madof n h1 (by omega), at0?_succ]
  have h3' := hr.madof (n+1) (by omega) (by omega)
  push_cast at h3'
  rw [h3']
  simp only [Option.bind_eq_bind, Option.bind_some]
  rw [if_neg (by rw [hu]; omega)]
  rfl

/-- Non-vacuity: local DOF 2 of node 3 is DOF 5, the last one; it is in range. -/
example : exampleModel.firstDof 3 + 2 - 1 = exampleTables.ndof ∧ 2 ≤ exampleModel.nndof.getD (3-1) 0 := by decide

end IFEM.Props
