import Verif.Spec.Patch
import Verif.Props.Utilities
import Mathlib.Data.List.Nodup
/-!
# C19: boundary condition codes
-/
namespace IFEM.Props
open IFEM.Spec

theorem hasDigit_iff (num d : Nat) : HasDigit num d ↔ d ∈ getDigits num := by
  induction num using Nat.strong_induction_on with
  | _ num ih =>
    rw [getDigits]
    by_cases h : num = 0
    · subst h; simp [HasDigit]
    · rw [dif_neg h, List.mem_cons, ← ih (num/10) (Nat.div_lt_self (Nat.pos_of_ne_zero h) (by decide))]
      constructor
      · rintro ⟨k, hk, hd⟩
        cases k with
        | zero => exact Or.inl (by simpa using hd.symm)
        | succ k =>
          refine Or.inr ⟨k, ?_, ?_⟩ <;> rw [Nat.div_div_eq_div_mul, ← Nat.pow_succ']
          · exact hk
          · exact hd
      · rintro (e | ⟨k, hk, hd⟩)
        · exact ⟨0, by simpa using h, by simpa using e.symm⟩
        · refine ⟨k+1, ?_, ?_⟩ <;> rw [Nat.pow_succ', ← Nat.div_div_eq_div_mul]
          · exact hk
          · exact hd

theorem getDigits_lt (num d : Nat) (h : d ∈ getDigits num) : d < 10 := by
  obtain ⟨k, -, hk⟩ := (hasDigit_iff num d).mpr h
  omega

theorem mem_digitSet (num d : Nat) : d ∈ digitSet num ↔ HasDigit num d := by
  rw [hasDigit_iff, digitSet, List.mem_filter, List.mem_range, List.contains_iff_mem]
  exact ⟨fun h => h.2, fun h => ⟨getDigits_lt _ _ h, h⟩⟩

theorem bcCode_fix (b : Bc) (d c : Nat) : bcCode (b.fix d) c = if c = d ∧ 1 ≤ c ∧ c ≤ 6 then 0 else bcCode b c := by
  unfold Bc.fix
  split <;> (unfold bcCode; split <;> simp_all <;> omega)

theorem bcCode_free (b : Bc) (d c : Nat) : bcCode (b.free d) c = if c = d then 1 else bcCode b c := by
  unfold Bc.free
  split <;> (unfold bcCode; split <;> simp_all <;> omega)

theorem fix_node (b : Bc) (d : Nat) : (b.fix d).node = b.node := by unfold Bc.fix; split <;> rfl

theorem free_node (b : Bc) (d : Nat) : (b.free d).node = b.node := by unfold Bc.free; split <;> rfl

/-- The update of one entry by `fix`. -/
def fixAll (nf : Nat) (ds : List Nat) (b : Bc) : Bc := ds.foldl (fun b d => if d ≤ nf then b.fix d else b) b

theorem fixAll_spec (nf : Nat) (ds : List Nat) (b : Bc) :
    (fixAll nf ds b).node = b.node ∧ ∀ c, bcCode (fixAll nf ds b) c = if c ∈ ds ∧ c ≤ nf ∧ 1 ≤ c ∧ c ≤ 6 then 0 else bcCode b c := by
  induction ds generalizing b with
  | nil => simp [fixAll]
  | cons d ds ih =>
    obtain ⟨i1, i2⟩ := ih (if d ≤ nf then b.fix d else b)
    have e : fixAll nf (d :: ds) b = fixAll nf ds (if d ≤ nf then b.fix d else b) := rfl
    rw [e]
    refine ⟨?_, fun c => ?_⟩
    · rw [i1]; split
      · exact fix_node _ _
      · rfl
    · rw [i2 c]
      by_cases hc : c ∈ ds ∧ c ≤ nf ∧ 1 ≤ c ∧ c ≤ 6
      · rw [if_pos hc, if_pos ⟨List.mem_cons_of_mem _ hc.1, hc.2⟩]
      · rw [if_neg hc]
        by_cases hd : d ≤ nf
        · rw [if_pos hd, bcCode_fix]
          by_cases h : c = d ∧ 1 ≤ c ∧ c ≤ 6
          · rw [if_pos h, if_pos ⟨by simp [h.1], by omega, h.2⟩]
          · rw [if_neg h, if_neg]
            rintro ⟨h1, h2, h3⟩
            rcases List.mem_cons.mp h1 with e | e
            · exact h ⟨e, h3⟩
            · exact hc ⟨e, h2, h3⟩
        · rw [if_neg hd, if_neg]
          rintro ⟨h1, h2, h3⟩
          rcases List.mem_cons.mp h1 with e | e
          · omega
          · exact hc ⟨e, h2, h3⟩

theorem updateBc_spec (bcs : List Bc) (node : Int) (f : Bc → Bc) (hf : ∀ b, (f b).node = b.node) :
    (∀ n, n ∈ (updateBc bcs node f).map (fun b => b.node) ↔ n = node ∨ n ∈ bcs.map fun b => b.node) ∧
    ((bcs.map fun b => b.node).Nodup → ((updateBc bcs node f).map fun b => b.node).Nodup ∧
      ∀ b, b ∈ updateBc bcs node f ↔ (b ∈ bcs ∧ b.node ≠ node) ∨ (∃ b0 ∈ bcs, b0.node = node ∧ b = f b0) ∨ (node ∉ bcs.map (fun b => b.node) ∧ b = f { node := node })) := by
  induction bcs with
  | nil => simp [updateBc, hf]
  | cons x xs ih =>
    obtain ⟨i1, i2⟩ := ih
    rw [updateBc]
    by_cases h : x.node = node
    · rw [if_pos h]
      refine ⟨fun n => by simp [hf, h], fun hn => ?_⟩
      rw [List.map_cons, List.nodup_cons] at hn
      refine ⟨?_, fun b => ?_⟩
      · rw [List.map_cons, List.nodup_cons, hf]; exact hn
      · rw [List.mem_cons]
        constructor
        · rintro (e | e)
          · exact Or.inr (Or.inl ⟨x, by simp, h, e⟩)
          · refine Or.inl ⟨List.mem_cons_of_mem _ e, fun e2 => hn.1 ?_⟩
            rw [h, ← e2]; exact List.mem_map_of_mem e
        · rintro (⟨e, e2⟩ | ⟨b0, e, e2, e3⟩ | ⟨e, -⟩)
          · rcases List.mem_cons.mp e with rfl | e
            · exact absurd h e2
            · exact Or.inr e
          · rcases List.mem_cons.mp e with rfl | e
            · exact Or.inl e3
            · exact absurd (by rw [h, ← e2]; exact List.mem_map_of_mem e) hn.1
          · simp [h] at e
    · rw [if_neg h]
      refine ⟨fun n => ?_, fun hn => ?_⟩
      · rw [List.map_cons, List.mem_cons, i1, List.map_cons, List.mem_cons]; tauto
      · rw [List.map_cons, List.nodup_cons] at hn
        obtain ⟨j1, j2⟩ := i2 hn.2
        refine ⟨?_, fun b => ?_⟩
        · rw [List.map_cons, List.nodup_cons, i1]
          exact ⟨fun e => e.elim (fun e => h e) hn.1, j1⟩
        · rw [List.mem_cons, j2 b]
          constructor
          · rintro (rfl | ⟨e, e2⟩ | ⟨b0, e, e2, e3⟩ | ⟨e, e2⟩)
            · exact Or.inl ⟨by simp, h⟩
            · exact Or.inl ⟨List.mem_cons_of_mem _ e, e2⟩
            · exact Or.inr (Or.inl ⟨b0, List.mem_cons_of_mem _ e, e2, e3⟩)
            · refine Or.inr (Or.inr ⟨?_, e2⟩)
              rw [List.map_cons, List.mem_cons]
              exact fun e3 => e3.elim (fun e3 => h e3.symm) e
          · rintro (⟨e, e2⟩ | ⟨b0, e, e2, e3⟩ | ⟨e, e2⟩)
            · rcases List.mem_cons.mp e with rfl | e
              · exact Or.inl rfl
              · exact Or.inr (Or.inl ⟨e, e2⟩)
            · rcases List.mem_cons.mp e with rfl | e
              · exact absurd e2 h
              · exact Or.inr (Or.inr (Or.inl ⟨b0, e, e2, e3⟩))
            · refine Or.inr (Or.inr (Or.inr ⟨?_, e2⟩))
              rw [List.map_cons, List.mem_cons] at e
              exact fun e3 => e (Or.inr e3)

theorem nodeID_pos (mlgn : List Int) (inod : Nat) (n : Int) (hn : 1 ≤ n) : nodeID mlgn inod = n ↔ IsNode mlgn inod n := by
  unfold nodeID IsNode
  by_cases h : inod < 1
  · rw [if_pos h]; constructor
    · intro e; omega
    · rintro ⟨e, -⟩; omega
  · rw [if_neg h, List.getD_eq_getElem?_getD]
    cases hg : mlgn[inod-1]? with
    | none => simp; omega
    | some x => simp; omega

open Classical in
theorem fixNode_spec (nf : Nat) (mlgn : List Int) (bcs : List Bc) (inod dirs : Nat) (h : WellFormedBc bcs) :
    WellFormedBc (fixNode nf mlgn bcs inod dirs).1 ∧
    ∀ n c, FixedDof (fixNode nf mlgn bcs inod dirs).1 n c ↔ FixedDof bcs n c ∨ (1 ≤ n ∧ IsNode mlgn inod n ∧ HasDigit dirs c ∧ 1 ≤ c ∧ c ≤ 6 ∧ c ≤ nf) := by
  unfold fixNode
  dsimp only
  generalize hnode : nodeID mlgn inod = node
  by_cases hc : node < 1 ∨ dirs < 1
  · rw [if_pos hc]
    refine ⟨h, fun n c => ⟨Or.inl, ?_⟩⟩
    rintro (e | ⟨e1, e2, ⟨k, e3, -⟩, -⟩)
    · exact e
    · rw [← nodeID_pos _ _ _ e1, hnode] at e2
      rcases hc with hc | hc
      · omega
      · have : dirs = 0 := by omega
        simp [this] at e3
  · rw [if_neg hc]
    have hpos : 1 ≤ node := by omega
    dsimp only
    have hfa : (fun b : Bc => (digitSet dirs).foldl (fun b d => if d ≤ nf then b.fix d else b) b) = fixAll nf (digitSet dirs) := rfl
    rw [hfa]
    obtain ⟨u1, u2⟩ := updateBc_spec bcs node (fixAll nf (digitSet dirs)) (fun b => (fixAll_spec _ _ b).1)
    obtain ⟨u2, u3⟩ := u2 h.1
    have hcode : ∀ b c, bcCode (fixAll nf (digitSet dirs) b) c = if HasDigit dirs c ∧ c ≤ nf ∧ 1 ≤ c ∧ c ≤ 6 then 0 else bcCode b c := by
      intro b c
      rw [(fixAll_spec _ _ b).2 c]
      simp only [mem_digitSet]
    have hnew : ∀ c, bcCode { node := node } c = 1 := by intro c; unfold bcCode; split <;> rfl
    refine ⟨⟨u2, ?_⟩, ?_⟩
    · intro b hb c
      rcases (u3 b).mp hb with ⟨e, -⟩ | ⟨b0, e, -, rfl⟩ | ⟨-, rfl⟩
      · exact h.2 b e c
      · rw [hcode]; split
        · exact Or.inl rfl
        · exact h.2 b0 e c
      · rw [hcode]; split
        · exact Or.inl rfl
        · exact Or.inr (hnew c)
    · intro n c
      constructor
      · rintro ⟨b, hb, rfl, h0⟩
        rcases (u3 b).mp hb with ⟨e, -⟩ | ⟨b0, e, e2, rfl⟩ | ⟨-, rfl⟩
        · exact Or.inl ⟨b, e, rfl, h0⟩
        · rw [hcode] at h0
          rw [(fixAll_spec _ _ b0).1, e2]
          by_cases hd : HasDigit dirs c ∧ c ≤ nf ∧ 1 ≤ c ∧ c ≤ 6
          · exact Or.inr ⟨hpos, (nodeID_pos _ _ _ hpos).mp hnode, hd.1, hd.2.2.1, hd.2.2.2, hd.2.1⟩
          · rw [if_neg hd] at h0
            exact Or.inl ⟨b0, e, e2, h0⟩
        · rw [hcode, hnew] at h0
          rw [(fixAll_spec _ _ _).1]
          by_cases hd : HasDigit dirs c ∧ c ≤ nf ∧ 1 ≤ c ∧ c ≤ 6
          · exact Or.inr ⟨hpos, (nodeID_pos _ _ _ hpos).mp hnode, hd.1, hd.2.2.1, hd.2.2.2, hd.2.1⟩
          · rw [if_neg hd] at h0; omega
      · rintro (⟨b, hb, rfl, h0⟩ | ⟨e1, e2, e3, e4, e5, e6⟩)
        · by_cases hbn : b.node = node
          · refine ⟨fixAll nf (digitSet dirs) b, (u3 _).mpr (Or.inr (Or.inl ⟨b, hb, hbn, rfl⟩)), (fixAll_spec _ _ b).1, ?_⟩
            rw [hcode]; split
            · rfl
            · exact h0
          · exact ⟨b, (u3 _).mpr (Or.inl ⟨hb, hbn⟩), rfl, h0⟩
        · have en : n = node := by rw [← hnode]; exact ((nodeID_pos _ _ _ e1).mpr e2).symm
          subst en
          have hd : HasDigit dirs c ∧ c ≤ nf ∧ 1 ≤ c ∧ c ≤ 6 := ⟨e3, e6, e4, e5⟩
          by_cases hm : n ∈ bcs.map fun b => b.node
          · obtain ⟨b, hb, hbn⟩ := List.mem_map.mp hm
            exact ⟨_, (u3 _).mpr (Or.inr (Or.inl ⟨b, hb, hbn, rfl⟩)), by rw [(fixAll_spec _ _ b).1]; exact hbn, by rw [hcode, if_pos hd]⟩
          · exact ⟨_, (u3 _).mpr (Or.inr (Or.inr ⟨hm, rfl⟩)), (fixAll_spec _ _ _).1, by rw [hcode, if_pos hd]⟩

/-- The codes after a sequence of calls `fix(inod,dirs)`. -/
def fixCalls (nf : Nat) (mlgn : List Int) (bcs : List Bc) (calls : List (Nat × Nat)) : List Bc :=
  calls.foldl (fun b q => (fixNode nf mlgn b q.1 q.2).1) bcs

/-- **C19**. After any sequence of `fix` calls, DOF `c` of node `n` is fixed iff it was fixed before, or some call addressed that node with a code with digit `c`, where `c` is
at most the number of unknowns per node (and one of the six components); the representation stays consistent. -/
theorem C19_fix_calls (nf : Nat) (mlgn : List Int) (bcs : List Bc) (calls : List (Nat × Nat)) (h : WellFormedBc bcs) :
    WellFormedBc (calls.foldl (fun b q => (fixNode nf mlgn b q.1 q.2).1) bcs) ∧
    ∀ n c, FixedDof (calls.foldl (fun b q => (fixNode nf mlgn b q.1 q.2).1) bcs) n c ↔
      FixedDof bcs n c ∨ ∃ q ∈ calls, 1 ≤ n ∧ IsNode mlgn q.1 n ∧ HasDigit q.2 c ∧ 1 ≤ c ∧ c ≤ 6 ∧ c ≤ nf := by
  induction calls generalizing bcs with
  | nil => simp [h]
  | cons q qs ih =>
    obtain ⟨s1, s2⟩ := fixNode_spec nf mlgn bcs q.1 q.2 h
    obtain ⟨i1, i2⟩ := ih _ s1
    rw [List.foldl_cons]
    refine ⟨i1, fun n c => ?_⟩
    rw [i2, s2, or_assoc]
    constructor
    · rintro (e | e | ⟨q', e1, e2⟩)
      · exact Or.inl e
      · exact Or.inr ⟨q, by simp, e⟩
      · exact Or.inr ⟨q', List.mem_cons_of_mem _ e1, e2⟩
    · rintro (e | ⟨q', e1, e2⟩)
      · exact Or.inl e
      · rcases List.mem_cons.mp e1 with rfl | e1
        · exact Or.inr (Or.inl e2)
        · exact Or.inr (Or.inr ⟨q', e1, e2⟩)

/-- **C19** (order independence). Two sequences with the same calls, in any order and with any repetitions, fix the same DOFs. -/
theorem C19_order_independent (nf : Nat) (mlgn : List Int) (calls calls' : List (Nat × Nat)) (h : ∀ q, q ∈ calls ↔ q ∈ calls') (n : Int) (c : Nat) :
    FixedDof (calls.foldl (fun b q => (fixNode nf mlgn b q.1 q.2).1) []) n c ↔ FixedDof (calls'.foldl (fun b q => (fixNode nf mlgn b q.1 q.2).1) []) n c := by
  have h0 : WellFormedBc [] := ⟨by simp, by simp⟩
  rw [(C19_fix_calls nf mlgn [] calls h0).2, (C19_fix_calls nf mlgn [] calls' h0).2]
  simp only [h]

/-- Codes 12 and 4 for the second node, code 3 and an invalid node for three unknowns per node: DOFs 1, 2 and 3 of node 7 are fixed, nothing else. -/
example : fixCalls 3 [5, 7] [] [(2, 12), (2, 4), (2, 3), (3, 1)] = [⟨7, 0, 0, 0, 1, 1, 1⟩] := by decide +kernel

/-! ## Queries -/

theorem fixedLoop_digit (b : Bc) (c : Nat) (hc : c < 10) : b.fixedLoop c = decide (bcCode b c = 0) := by
  rw [Bc.fixedLoop]
  by_cases h : c = 0
  · subst h; simp [bcCode]
  · rw [dif_neg h, Nat.mod_eq_of_lt hc, Nat.div_eq_of_lt hc]
    unfold bcCode
    split <;> simp_all
    rw [Bc.fixedLoop]; simp

theorem any_fixedOp (bcs : List Bc) (n : Int) (c : Nat) (hc : c < 10) : bcs.any (fixedOp n c) = true ↔ FixedDof bcs n c := by
  rw [List.any_eq_true]
  constructor
  · rintro ⟨b, hb, h⟩
    rw [fixedOp, Bool.and_eq_true, decide_eq_true_eq, fixedLoop_digit b c hc, decide_eq_true_eq] at h
    exact ⟨b, hb, h⟩
  · rintro ⟨b, hb, h⟩
    refine ⟨b, hb, ?_⟩
    rw [fixedOp, Bool.and_eq_true, decide_eq_true_eq, fixedLoop_digit b c hc, decide_eq_true_eq]
    exact h

/-- **C19** (query). For a single component, `isFixed` answers whether that DOF is fixed. -/
theorem C19_is_fixed (nf : Nat) (bcs : List Bc) (n : Int) (c : Nat) (hc : c < 10) (all : Bool) :
    isFixed nf bcs n c all = true ↔ FixedDof bcs n c := by
  rw [isFixed, if_pos (Or.inl hc)]
  exact any_fixedOp bcs n c hc

/-- **C19** (not satisfied for several components, F40). `isFixed(node,123,all=true)` is to tell whether all three components are fixed, but looks at the first one only,
and if there are boundary conditions for other nodes only and no component is valid for the patch, it answers yes. -/
theorem C19_counterexample_is_fixed_all :
    (isFixed 3 [⟨1, 0, 1, 1, 1, 1, 1⟩] 1 123 true = true ∧ ¬ FixedDof [⟨1, 0, 1, 1, 1, 1, 1⟩] 1 2) ∧
    (isFixed 1 [⟨1, 0, 1, 1, 1, 1, 1⟩] 2 23 true = true ∧ ∀ c, ¬ FixedDof [⟨1, 0, 1, 1, 1, 1, 1⟩] 2 c) := by
  refine ⟨⟨by decide +kernel, ?_⟩, by decide +kernel, ?_⟩
  · rintro ⟨b, hb, -, h0⟩
    rw [List.mem_singleton] at hb
    subst hb
    simp [bcCode] at h0
  · rintro c ⟨b, hb, h, -⟩
    rw [List.mem_singleton] at hb
    subst hb
    simp at h

/-! ## Release of a fixed DOF -/

theorem bc_sum_six (b : Bc) (hb : ∀ c, bcCode b c = 0 ∨ bcCode b c = 1) : b.sum = 6 ↔ ∀ c, bcCode b c = 1 := by
  have h1 := hb 1; have h2 := hb 2; have h3 := hb 3; have h4 := hb 4; have h5 := hb 5; have h6 := hb 6
  simp only [bcCode] at h1 h2 h3 h4 h5 h6
  unfold Bc.sum
  constructor
  · intro h c
    unfold bcCode
    split <;> omega
  · intro h
    have e1 := h 1; have e2 := h 2; have e3 := h 3; have e4 := h 4; have e5 := h 5; have e6 := h 6
    simp only [bcCode] at e1 e2 e3 e4 e5 e6
    omega

theorem overrideBc_sub (bcs : List Bc) (n : Int) (c : Nat) : ∀ m, m ∈ (overrideBc bcs n c).map (fun b => b.node) → m ∈ bcs.map fun b => b.node := by
  induction bcs with
  | nil => simp [overrideBc]
  | cons b bs ih =>
    intro m
    rw [overrideBc]
    split
    · split
      · intro hm; rw [List.map_cons]; exact List.mem_cons_of_mem _ hm
      · rw [List.map_cons, List.map_cons, free_node]; exact id
    · rw [List.map_cons, List.map_cons, List.mem_cons, List.mem_cons]
      rintro (e | e)
      · exact Or.inl e
      · exact Or.inr (ih m e)

/-- **C19** (release). When a fixed DOF is released, by a constraint or prescribed value overriding it, exactly this DOF is released. -/
theorem C19_release (bcs : List Bc) (n : Int) (c : Nat) (hc : c < 10) (h : WellFormedBc bcs) :
    WellFormedBc (overrideBc bcs n c) ∧ ∀ n' c', FixedDof (overrideBc bcs n c) n' c' ↔ FixedDof bcs n' c' ∧ ¬ (n' = n ∧ c' = c) := by
  induction bcs with
  | nil => exact ⟨h, fun n' c' => by simp [overrideBc, FixedDof]⟩
  | cons b bs ih =>
    have hn := h.1
    rw [List.map_cons, List.nodup_cons] at hn
    have hbs : WellFormedBc bs := ⟨hn.2, fun x hx => h.2 x (List.mem_cons_of_mem _ hx)⟩
    obtain ⟨i1, i2⟩ := ih hbs
    have hcons : ∀ (x : Bc) (xs : List Bc) (n' : Int) (c' : Nat), FixedDof (x :: xs) n' c' ↔ (x.node = n' ∧ bcCode x c' = 0) ∨ FixedDof xs n' c' := by
      intro x xs n' c'
      simp [FixedDof]
    have hno : ∀ c', ¬ FixedDof bs b.node c' := by
      rintro c' ⟨x, hx, e, -⟩
      exact hn.1 (by rw [← e]; exact List.mem_map_of_mem hx)
    have hfree : ∀ x, bcCode (b.free c) x = 0 ∨ bcCode (b.free c) x = 1 := by
      intro x; rw [bcCode_free]; split
      · exact Or.inr rfl
      · exact h.2 b (by simp) x
    rw [overrideBc, fixedOp, fixedLoop_digit b c hc]
    by_cases hb : b.node = n ∧ bcCode b c = 0
    · rw [if_pos (by simpa using hb)]
      obtain ⟨rfl, hb2⟩ := hb
      by_cases h6 : (b.free c).sum = 6
      · rw [if_pos h6]
        rw [bc_sum_six _ hfree] at h6
        refine ⟨hbs, fun n' c' => ?_⟩
        rw [hcons]
        constructor
        · intro e
          refine ⟨Or.inr e, ?_⟩
          rintro ⟨rfl, -⟩
          exact hno _ e
        · rintro ⟨⟨e1, e2⟩ | e, h2⟩
          · have := h6 c'
            rw [bcCode_free] at this
            by_cases hcc : c' = c
            · exact absurd ⟨e1.symm, hcc⟩ h2
            · rw [if_neg hcc] at this; omega
          · exact e
      · rw [if_neg h6]
        refine ⟨⟨?_, ?_⟩, fun n' c' => ?_⟩
        · rw [List.map_cons, List.nodup_cons, free_node]; exact hn
        · intro x hx
          rcases List.mem_cons.mp hx with rfl | hx
          · exact hfree
          · exact hbs.2 x hx
        · rw [hcons, hcons, free_node, bcCode_free]
          constructor
          · rintro (⟨rfl, e⟩ | e)
            · by_cases hcc : c' = c
              · rw [if_pos hcc] at e; omega
              · rw [if_neg hcc] at e
                exact ⟨Or.inl ⟨rfl, e⟩, fun e2 => hcc e2.2⟩
            · refine ⟨Or.inr e, ?_⟩
              rintro ⟨rfl, -⟩
              exact hno _ e
          · rintro ⟨⟨rfl, e⟩ | e, h2⟩
            · refine Or.inl ⟨rfl, ?_⟩
              rw [if_neg (fun hcc => h2 ⟨rfl, hcc⟩)]; exact e
            · exact Or.inr e
    · rw [if_neg (by simpa using hb)]
      refine ⟨⟨?_, ?_⟩, fun n' c' => ?_⟩
      · rw [List.map_cons, List.nodup_cons]
        exact ⟨fun e => hn.1 (overrideBc_sub bs n c _ e), i1.1⟩
      · intro x hx
        rcases List.mem_cons.mp hx with rfl | hx
        · exact h.2 x (by simp)
        · exact i1.2 x hx
      · rw [hcons, hcons, i2]
        constructor
        · rintro (⟨e1, e2⟩ | ⟨e1, e2⟩)
          · refine ⟨Or.inl ⟨e1, e2⟩, ?_⟩
            rintro ⟨rfl, rfl⟩
            exact hb ⟨e1, e2⟩
          · exact ⟨Or.inr e1, e2⟩
        · rintro ⟨e1 | e1, e2⟩
          · exact Or.inl e1
          · exact Or.inr ⟨e1, e2⟩

/-- Releasing DOF 2 of node 7 keeps the others fixed. -/
example : overrideBc [⟨5, 0, 1, 1, 1, 1, 1⟩, ⟨7, 0, 0, 0, 1, 1, 1⟩] 7 2 = [⟨5, 0, 1, 1, 1, 1, 1⟩, ⟨7, 0, 1, 0, 1, 1, 1⟩] := by decide +kernel

end IFEM.Props
