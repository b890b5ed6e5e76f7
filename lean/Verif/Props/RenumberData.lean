import Verif.Props.Renumber
import Verif.Spec.Patch
import Mathlib.Data.Rat.Defs
/-!
# C21: boundary conditions and constraints under renumbering, merging of nodes
-/
namespace IFEM.Props
open IFEM IFEM.Spec IFEM.Lem

variable {K : Type}

/-- The node numbers the boundary conditions and constraints of a patch refer to. -/
def Refers (p : Patch K) (n : Int) : Prop :=
  (∃ b ∈ p.bcode, b.node = n) ∨ ∃ m ∈ p.mpcs, m.node = n ∨ ∃ t ∈ m.master, t.node = n

theorem natSum_zero (l : List Nat) : l.sum = 0 ↔ ∀ x ∈ l, x = 0 := by
  induction l with
  | nil => simp
  | cons a l ih => rw [List.sum_cons, Nat.add_eq_zero_iff, ih]; simp

theorem renumberOld_of {o2n : List (Int × Int)} {n v : Int} (h : o2n.lookup n = some v) : renumberOld o2n n = (true, v) := by
  unfold renumberOld; rw [h]

theorem renumberBcs_ok (o2n : List (Int × Int)) (f : Int → Int) (all : Bool) (bcs : List Bc)
    (h : ∀ b ∈ bcs, o2n.lookup b.node = some (f b.node)) :
    renumberBcs o2n all bcs = (bcs.map fun b => { b with node := f b.node }, 0) := by
  induction bcs with
  | nil => rfl
  | cons b bs ih =>
    rw [renumberBcs]
    rw [renumberOld_of (h b List.mem_cons_self), ih fun x hx => h x (List.mem_cons_of_mem _ hx)]
    simp

theorem renumberMpc_ok (o2n : List (Int × Int)) (f : Int → Int) (m : Mpc K) (h0 : o2n.lookup m.node = some (f m.node))
    (h : ∀ t ∈ m.master, o2n.lookup t.node = some (f t.node)) :
    renumberMpc o2n m = ({ m with node := f m.node, master := m.master.map fun t => { t with node := f t.node } }, 0) := by
  unfold renumberMpc
  rw [renumberOld_of h0]
  have e1 : m.master.map (fun t => { t with node := (renumberOld o2n t.node).2 }) = m.master.map fun t => { t with node := f t.node } := by
    apply List.map_congr_left
    intro t ht
    rw [renumberOld_of (h t ht)]
  have e2 : m.master.filter (fun t => !(renumberOld o2n t.node).1) = [] := by
    rw [List.filter_eq_nil_iff]
    intro t ht
    rw [renumberOld_of (h t ht)]
    simp
  rw [e1, e2]
  simp

/-- The patch data after renumbering with a complete mapping. -/
theorem renumberData_ok (o2n : List (Int × Int)) (f : Int → Int) (p : Patch K)
    (h : ∀ n, Refers p n → o2n.lookup n = some (f n)) :
    (renumberData o2n 0 p).1 = true ∧ (renumberData o2n 0 p).2.mlgn = p.mlgn ∧
    (renumberData o2n 0 p).2.bcode = p.bcode.map (fun b => { b with node := f b.node }) ∧
    (renumberData o2n 0 p).2.mpcs = p.mpcs.map (fun m => { m with node := f m.node, master := m.master.map fun t => { t with node := f t.node } }) := by
  have hb : ∀ b ∈ p.bcode, o2n.lookup b.node = some (f b.node) := fun b hb => h _ (Or.inl ⟨b, hb, rfl⟩)
  have hm : ∀ m ∈ p.mpcs, renumberMpc o2n m = ({ m with node := f m.node, master := m.master.map fun t => { t with node := f t.node } }, 0) :=
    fun m hm => renumberMpc_ok o2n f m (h _ (Or.inr ⟨m, hm, Or.inl rfl⟩)) fun t ht => h _ (Or.inr ⟨m, hm, Or.inr ⟨t, ht, rfl⟩⟩)
  have e1 : p.mpcs.map (fun m => (renumberMpc o2n m).1) = p.mpcs.map fun m => { m with node := f m.node, master := m.master.map fun t => { t with node := f t.node } } := by
    apply List.map_congr_left
    intro m h'
    rw [hm m h']
  have e2 : (p.mpcs.map fun m => (renumberMpc o2n m).2).sum = 0 := by
    rw [natSum_zero]
    intro x hx
    obtain ⟨m, h', rfl⟩ := List.mem_map.mp hx
    rw [hm m h']
  unfold renumberData
  dsimp only
  rw [renumberBcs_ok o2n f _ p.bcode hb, e1, e2, if_neg (by omega), if_neg (by omega)]
  simp

/-- Boundary conditions and constraints keep their meaning: with a mapping that covers and separates the referred nodes, the renumbering succeeds, the same DOFs
are fixed and slaves, and a displacement field obeys the new constraints iff it obeys the old ones in the old numbering. -/
theorem C21_constraints_transported [Field K] (o2n : List (Int × Int)) (f : Int → Int) (V : Int → Prop) (p : Patch K)
    (hV : ∀ n, Refers p n → V n) (hl : ∀ n, V n → o2n.lookup n = some (f n)) (hinj : ∀ a b, V a → V b → f a = f b → a = b) :
    (renumberData o2n 0 p).1 = true ∧ (renumberData o2n 0 p).2.mlgn = p.mlgn ∧
    (∀ n c, V n → (FixedDof (renumberData o2n 0 p).2.bcode (f n) c ↔ FixedDof p.bcode n c)) ∧
    (∀ n d, V n → (IsSlave (renumberData o2n 0 p).2.mpcs (f n, d) ↔ IsSlave p.mpcs (n, d))) ∧
    (∀ u, HoldAll (renumberData o2n 0 p).2.mpcs u ↔ HoldAll p.mpcs fun k => u (f k.1, k.2)) := by
  obtain ⟨h1, h2, h3, h4⟩ := renumberData_ok o2n f p fun n hn => hl n (hV n hn)
  refine ⟨h1, h2, ?_, ?_, ?_⟩
  · intro n c hn
    rw [h3]
    unfold FixedDof
    constructor
    · rintro ⟨b, hb, e, hc⟩
      obtain ⟨x, hx, rfl⟩ := List.mem_map.mp hb
      refine ⟨x, hx, hinj _ _ (hV _ (Or.inl ⟨x, hx, rfl⟩)) hn e, ?_⟩
      rw [← hc]; unfold bcCode; rfl
    · rintro ⟨x, hx, e, hc⟩
      refine ⟨_, List.mem_map_of_mem hx, ?_, ?_⟩
      · show f x.node = f n; rw [e]
      · rw [← hc]; unfold bcCode; rfl
  · intro n d hn
    rw [h4]
    unfold IsSlave
    constructor
    · rintro ⟨m, hm, e⟩
      obtain ⟨x, hx, rfl⟩ := List.mem_map.mp hm
      simp only [Prod.mk.injEq] at e
      refine ⟨x, hx, ?_⟩
      rw [Prod.mk.injEq]
      exact ⟨hinj _ _ (hV _ (Or.inr ⟨x, hx, Or.inl rfl⟩)) hn e.1, e.2⟩
    · rintro ⟨x, hx, e⟩
      simp only [Prod.mk.injEq] at e
      refine ⟨_, List.mem_map_of_mem hx, ?_⟩
      simp only [Prod.mk.injEq]
      exact ⟨by rw [e.1], e.2⟩
  · intro u
    rw [h4]
    unfold HoldAll Holds masterSum
    constructor
    · intro h m hm
      have := h _ (List.mem_map_of_mem hm)
      simpa [List.map_map, Function.comp_def] using this
    · intro h m hm
      obtain ⟨x, hx, rfl⟩ := List.mem_map.mp hm
      have := h x hx
      simpa [List.map_map, Function.comp_def] using this

/-- An order-preserving renumbering keeps the set of constraints sorted and the boundary codes consistent. -/
theorem C21_valid_preserved [Field K] (o2n : List (Int × Int)) (f : Int → Int) (V : Int → Prop) (p : Patch K)
    (hV : ∀ n, Refers p n → V n) (hl : ∀ n, V n → o2n.lookup n = some (f n)) (hmono : ∀ a b, V a → V b → a < b → f a < f b)
    (hp : ValidPatch p) : ValidPatch (renumberData o2n 0 p).2 := by
  obtain ⟨_, _, h3, h4⟩ := renumberData_ok o2n f p fun n hn => hl n (hV n hn)
  refine ⟨⟨?_, ?_⟩, ?_⟩
  · rw [h3, List.map_map]
    have hb : ∀ b ∈ p.bcode, V b.node := fun b hb => hV _ (Or.inl ⟨b, hb, rfl⟩)
    have h0 := hp.1.1
    unfold List.Nodup at h0 ⊢
    rw [List.pairwise_map] at h0 ⊢
    refine h0.imp_of_mem ?_
    intro a b ha hb' hab
    show f a.node ≠ f b.node
    rcases Int.lt_trichotomy a.node b.node with h | h | h
    · have := hmono _ _ (hb a ha) (hb b hb') h; omega
    · exact absurd h hab
    · have := hmono _ _ (hb b hb') (hb a ha) h; omega
  · rw [h3]
    intro b hb c
    obtain ⟨x, hx, rfl⟩ := List.mem_map.mp hb
    have := hp.1.2 x hx c
    unfold bcCode at this ⊢
    exact this
  · rw [h4, List.pairwise_map]
    refine hp.2.imp_of_mem ?_
    intro a b ha hb hab
    dsimp only
    rcases hab with h | ⟨h, h'⟩
    · exact Or.inl (hmono _ _ (hV _ (Or.inr ⟨a, ha, Or.inl rfl⟩)) (hV _ (Or.inr ⟨b, hb, Or.inl rfl⟩)) h)
    · exact Or.inr ⟨by rw [h], h'⟩

/-- Finding F46: renumbering by first occurrence changes the order of node numbers within a patch; the constraints are renumbered in place in a `std::set`
sorted by slave, which is not sorted any more afterwards. -/
theorem C21_set_order_broken :
    ∃ (mlgn : List Int) (p : Patch Rat), p.mlgn = mlgn ∧ ValidPatch p ∧ (∀ n, Refers p n → n ∈ mlgn) ∧
      ¬ ValidPatch (renumberData (renumberSIM false [mlgn]).2.1 0 p).2 := by
  refine ⟨[7, 4, 5], { nf := 1, mlgn := [7, 4, 5], mpcs := [{ node := 4, dof := 1, c0 := 0, master := [{ node := 5, dof := 1, coeff := 1 }] }, { node := 7, dof := 1, c0 := 0 }] },
    rfl, ⟨⟨by simp, by simp⟩, by simp⟩, ?_, ?_⟩
  · intro n hn
    unfold Refers at hn
    simp at hn
    rcases hn with (rfl | rfl) | rfl <;> simp
  · intro hv
    have e : (renumberData (renumberSIM false [[7, 4, 5]]).2.1 0
        ({ nf := 1, mlgn := [7, 4, 5], mpcs := [{ node := 4, dof := 1, c0 := 0, master := [{ node := 5, dof := 1, coeff := 1 }] }, { node := 7, dof := 1, c0 := 0 }] } : Patch Rat)).2.mpcs =
        [{ node := 2, dof := 1, c0 := 0, master := [{ node := 3, dof := 1, coeff := 1 }] }, { node := 1, dof := 1, c0 := 0 }] := by decide +kernel
    have h2 := hv.2
    rw [e] at h2
    simp at h2

theorem renumberBcs_bad (o2n : List (Int × Int)) (all : Bool) (bcs : List Bc) :
    ((renumberBcs o2n all bcs).2 = 0 ↔ ∀ b ∈ bcs, ∃ v, o2n.lookup b.node = some v) ∧
    (all = true → ∀ b ∈ (renumberBcs o2n all bcs).1, ∃ x ∈ bcs, o2n.lookup x.node = some b.node) := by
  induction bcs with
  | nil => simp [renumberBcs]
  | cons b bs ih =>
    rw [renumberBcs]
    cases hl : o2n.lookup b.node with
    | some v =>
      rw [renumberOld_of hl]
      simp only [if_true]
      refine ⟨?_, ?_⟩
      · rw [ih.1]
        simp [hl]
      · intro ha x hx
        rcases List.mem_cons.mp hx with h | h
        · subst h; exact ⟨b, List.mem_cons_self, hl⟩
        · obtain ⟨y, hy, e⟩ := ih.2 ha x h
          exact ⟨y, List.mem_cons_of_mem _ hy, e⟩
    | none =>
      have : renumberOld o2n b.node = (false, b.node) := by unfold renumberOld; rw [hl]
      rw [this]
      simp only [Bool.false_eq_true, if_false]
      refine ⟨?_, ?_⟩
      · constructor
        · intro h; split at h <;> simp at h
        · intro h
          obtain ⟨v, hv⟩ := h b List.mem_cons_self
          rw [hl] at hv; simp at hv
      · intro ha x hx
        rw [if_pos ha] at hx
        obtain ⟨y, hy, e⟩ := ih.2 ha x hx
        exact ⟨y, List.mem_cons_of_mem _ hy, e⟩

theorem renumberMpc_bad (o2n : List (Int × Int)) (m : Mpc K) :
    (renumberMpc o2n m).2 = 0 ↔ (∃ v, o2n.lookup m.node = some v) ∧ ∀ t ∈ m.master, ∃ v, o2n.lookup t.node = some v := by
  have hst : ∀ n, (renumberOld o2n n).1 = true ↔ ∃ v, o2n.lookup n = some v := by
    intro n
    unfold renumberOld
    cases o2n.lookup n <;> simp
  unfold renumberMpc
  dsimp only
  rw [Nat.add_eq_zero_iff, List.length_eq_zero_iff, List.filter_eq_nil_iff]
  constructor
  · rintro ⟨h1, h2⟩
    refine ⟨(hst _).mp ?_, fun t ht => (hst _).mp ?_⟩
    · by_contra hc
      rw [if_neg hc] at h1
      simp at h1
    · have := h2 t ht
      simpa using this
  · rintro ⟨h1, h2⟩
    refine ⟨by rw [if_pos ((hst _).mpr h1)], fun t ht => ?_⟩
    have := (hst _).mpr (h2 t ht)
    simp [this]

/-- The renumbering of boundary conditions and constraints with a mapping of several nodes fails exactly if some referred node is missing in the mapping. -/
theorem C21_missing_node_reported (o2n : List (Int × Int)) (p : Patch K) (h2 : 1 < o2n.length) :
    (renumberData o2n 0 p).1 = false ↔ ∃ n, Refers p n ∧ o2n.lookup n = none := by
  have e : (renumberData o2n 0 p).1 = false ↔ ¬ ((renumberBcs o2n true p.bcode).2 = 0 ∧ (p.mpcs.map fun m => (renumberMpc o2n m).2).sum = 0) := by
    unfold renumberData
    dsimp only
    rw [show decide (o2n.length > 1 ∧ (0:Int) < 2) = true by simp; exact h2, if_neg (by omega)]
    simp only [Bool.and_true, Bool.not_eq_false', decide_eq_true_eq]
    omega
  rw [e, (renumberBcs_bad o2n true p.bcode).1, natSum_zero]
  constructor
  · intro h
    by_contra hc
    apply h
    have hc' : ∀ n, Refers p n → ∃ v, o2n.lookup n = some v := by
      intro n hn
      cases hl : o2n.lookup n with
      | none => exact absurd ⟨n, hn, hl⟩ hc
      | some v => exact ⟨v, rfl⟩
    refine ⟨fun b hb => hc' _ (Or.inl ⟨b, hb, rfl⟩), fun x hx => ?_⟩
    obtain ⟨m, hm, rfl⟩ := List.mem_map.mp hx
    rw [renumberMpc_bad]
    exact ⟨hc' _ (Or.inr ⟨m, hm, Or.inl rfl⟩), fun t ht => hc' _ (Or.inr ⟨m, hm, Or.inr ⟨t, ht, rfl⟩⟩)⟩
  · rintro ⟨n, hn, hl⟩ ⟨h1, h3⟩
    have : ∃ v, o2n.lookup n = some v := by
      rcases hn with ⟨b, hb, rfl⟩ | ⟨m, hm, hh⟩
      · exact h1 b hb
      · have h4 := (renumberMpc_bad o2n m).mp (h3 _ (List.mem_map_of_mem hm))
        rcases hh with rfl | ⟨t, ht, rfl⟩
        · exact h4.1
        · exact h4.2 t ht
    obtain ⟨v, hv⟩ := this
    rw [hl] at hv; simp at hv

/-- Shifting all node numbers moves fixed DOFs, slaves and constraint equations along. -/
theorem C21_shift [Field K] (s : Int) (p : Patch K) :
    (shiftNodes s p).mlgn = p.mlgn.map (· + s) ∧
    (∀ n c, FixedDof (shiftNodes s p).bcode (n + s) c ↔ FixedDof p.bcode n c) ∧
    (∀ n d, IsSlave (shiftNodes s p).mpcs (n + s, d) ↔ IsSlave p.mpcs (n, d)) ∧
    (∀ u, HoldAll (shiftNodes s p).mpcs u ↔ HoldAll p.mpcs fun k => u (k.1 + s, k.2)) ∧
    (ValidPatch p → ValidPatch (shiftNodes s p)) := by
  unfold shiftNodes Mpc.shiftNodes
  refine ⟨rfl, ?_, ?_, ?_, ?_⟩
  · intro n c
    unfold FixedDof
    constructor
    · rintro ⟨b, hb, e, hc⟩
      obtain ⟨x, hx, rfl⟩ := List.mem_map.mp hb
      refine ⟨x, hx, by dsimp only at e; omega, ?_⟩
      rw [← hc]; unfold bcCode; rfl
    · rintro ⟨x, hx, e, hc⟩
      refine ⟨_, List.mem_map_of_mem hx, by dsimp only; omega, ?_⟩
      rw [← hc]; unfold bcCode; rfl
  · intro n d
    unfold IsSlave
    constructor
    · rintro ⟨m, hm, e⟩
      obtain ⟨x, hx, rfl⟩ := List.mem_map.mp hm
      simp only [Prod.mk.injEq] at e
      refine ⟨x, hx, ?_⟩
      rw [Prod.mk.injEq]
      exact ⟨by omega, e.2⟩
    · rintro ⟨x, hx, e⟩
      simp only [Prod.mk.injEq] at e
      refine ⟨_, List.mem_map_of_mem hx, ?_⟩
      simp only [Prod.mk.injEq]
      exact ⟨by omega, e.2⟩
  · intro u
    unfold HoldAll Holds masterSum
    constructor
    · intro h m hm
      have := h _ (List.mem_map_of_mem hm)
      simpa [List.map_map, Function.comp_def] using this
    · intro h m hm
      obtain ⟨x, hx, rfl⟩ := List.mem_map.mp hm
      have := h x hx
      simpa [List.map_map, Function.comp_def] using this
  · intro hp
    refine ⟨⟨?_, ?_⟩, ?_⟩
    · have h0 := hp.1.1
      unfold List.Nodup at h0 ⊢
      rw [List.map_map]
      rw [List.pairwise_map] at h0 ⊢
      refine h0.imp ?_
      intro a b hab
      simp only [Function.comp_apply]
      omega
    · intro b hb c
      obtain ⟨x, hx, rfl⟩ := List.mem_map.mp hb
      have := hp.1.2 x hx c
      unfold bcCode at this ⊢
      exact this
    · dsimp only
      rw [List.pairwise_map]
      refine hp.2.imp ?_
      intro a b hab
      dsimp only
      omega

end IFEM.Props
