import Verif.Model.Renumber
/-!
# C21: update of the element connectivity for duplicated nodes
-/
namespace IFEM.Props
open IFEM

/-- Replacing `j` by `i`. -/
def repl (i j x : Nat) : Nat := if x = j then i else x

theorem replace_fst (i j : Nat) (hij : i ≠ j) (e : List Nat × Int) : (replaceNode i j e).1 = e.1.map (repl i j) := by
  unfold replaceNode
  have key : ∀ n : Nat, n ≤ e.1.length →
      ((List.range n).foldl (fun (e : List Nat × Int) k =>
        if e.1[k]? = some j then (e.1.set k i, if triangleCollapsed (e.1.set k i) k then 0 else e.2) else e) e).1 =
      (e.1.take n).map (repl i j) ++ e.1.drop n := by
    intro n
    induction n with
    | zero => intro _; simp
    | succ n ih =>
      intro hn
      have ihn := ih (by omega)
      rw [List.range_succ, List.foldl_append, List.foldl_cons, List.foldl_nil]
      generalize hs : (List.range n).foldl (fun (e : List Nat × Int) k =>
        if e.1[k]? = some j then (e.1.set k i, if triangleCollapsed (e.1.set k i) k then 0 else e.2) else e) e = s at ihn ⊢
      have hget : s.1[n]? = some (e.1[n]'(by omega)) := by
        rw [ihn, List.getElem?_append_right (by simp), List.length_map, List.length_take, Nat.min_eq_left (by omega), Nat.sub_self,
          List.getElem?_drop, Nat.add_zero, List.getElem?_eq_getElem (by omega)]
      rw [List.take_succ_eq_append_getElem (by omega), List.map_append, List.map_cons, List.map_nil, List.append_assoc]
      have hdrop : e.1.drop n = e.1[n]'(by omega) :: e.1.drop (n+1) := List.drop_eq_getElem_cons (by omega)
      split
      · rename_i hc
        rw [hget] at hc
        simp only [Option.some.injEq] at hc
        dsimp only
        rw [ihn, hdrop, List.set_append_right _ _ (by simp)]
        congr 1
        rw [show n - ((e.1.take n).map (repl i j)).length = 0 by simp; omega, List.set_cons_zero]
        unfold repl
        rw [if_pos hc]
        rfl
      · rename_i hc
        rw [hget] at hc
        simp only [Option.some.injEq] at hc
        rw [ihn, hdrop]
        unfold repl
        rw [if_neg hc]
        rfl
  have := key e.1.length (Nat.le_refl _)
  rw [List.take_length, List.drop_length, List.append_nil] at this
  exact this

theorem replace_snd_other (i j : Nat) (e : List Nat × Int) (h3 : e.1.length ≠ 3) : (replaceNode i j e).2 = e.2 := by
  unfold replaceNode
  have key : ∀ (ks : List Nat) (s : List Nat × Int), s.1.length ≠ 3 →
      (ks.foldl (fun (e : List Nat × Int) k =>
        if e.1[k]? = some j then (e.1.set k i, if triangleCollapsed (e.1.set k i) k then 0 else e.2) else e) s).2 = s.2 := by
    intro ks
    induction ks with
    | nil => intro s _; rfl
    | cons k ks ih =>
      intro s hs
      rw [List.foldl_cons]
      split
      · rw [ih _ (by simpa using hs)]
        have : triangleCollapsed (s.1.set k i) k = false := by
          unfold triangleCollapsed
          simp [hs]
        dsimp only
        rw [this]
        rfl
      · exact ih s hs
  exact key _ e h3

/-- Triangles: the element number is cleared iff a replaced node coincides with another one. -/
theorem replace_triangle (i j : Nat) (hij : i ≠ j) (a b c : Nat) (w : Int) :
    (replaceNode i j ([a, b, c], w)).2 = if ((a = j ∨ b = j) ∧ repl i j a = repl i j b) ∨ ((b = j ∨ c = j) ∧ repl i j b = repl i j c) ∨
      ((a = j ∨ c = j) ∧ repl i j a = repl i j c) then 0 else w := by
  unfold replaceNode triangleCollapsed repl
  simp only [List.length_cons, List.length_nil, List.range_succ, List.range_zero, List.nil_append, List.foldl_append, List.foldl_cons, List.foldl_nil]
  have hji : ¬ j = i := fun h => hij h.symm
  by_cases ha : a = j <;> by_cases hb : b = j <;> by_cases hc : c = j <;> by_cases ha' : a = i <;> by_cases hb' : b = i <;> by_cases hc' : c = i <;>
    simp_all <;> omega

/-- Local nodes `x`, `y` have the same global number. -/
def Same (mlgn : List Int) (x y : Nat) : Prop := mlgn[x]? = mlgn[y]?

/-- The sequence of the pairs `(i,j)` for which replacements are done. -/
def ops (mlgn : List Int) : List (Nat × Nat) :=
  (List.range mlgn.length).flatMap fun i => (((List.range mlgn.length).filter fun j => decide (i < j)).filter fun j => decide (mlgn[j]? = mlgn[i]?)).map fun j => (i, j)

theorem foldl_if {σ : Type} (l : List Nat) (P : Nat → Prop) [DecidablePred P] (f : σ → Nat → σ) (s : σ) :
    l.foldl (fun s j => if P j then f s j else s) s = (l.filter fun j => decide (P j)).foldl f s := by
  induction l generalizing s with
  | nil => rfl
  | cons a l ih =>
    rw [List.foldl_cons, ih, List.filter_cons]
    by_cases h : P a
    · simp [h]
    · simp [h]

theorem foldl_map_elm (l : List (Nat × Nat)) (elms : List (List Nat × Int)) :
    l.foldl (fun elms q => elms.map (replaceNode q.1 q.2)) elms = elms.map fun e => l.foldl (fun e q => replaceNode q.1 q.2 e) e := by
  induction l generalizing elms with
  | nil => simp
  | cons a l ih => rw [List.foldl_cons, ih, List.map_map]; rfl

theorem uniqueNodes_eq (mlgn : List Int) (elms : List (List Nat × Int)) :
    uniqueNodes mlgn elms = elms.map fun e => (ops mlgn).foldl (fun e q => replaceNode q.1 q.2 e) e := by
  rw [← foldl_map_elm]
  unfold uniqueNodes ops
  rw [List.foldl_flatMap]
  congr 1
  funext s i
  rw [foldl_if, List.foldl_map]

theorem ops_mem (mlgn : List Int) (q : Nat × Nat) (h : q ∈ ops mlgn) : q.1 < q.2 ∧ q.2 < mlgn.length ∧ Same mlgn q.2 q.1 := by
  unfold ops at h
  obtain ⟨i, hi, hj⟩ := List.mem_flatMap.mp h
  obtain ⟨j, hj', rfl⟩ := List.mem_map.mp hj
  simp only [List.mem_filter, List.mem_range, decide_eq_true_eq] at hj'
  exact ⟨hj'.1.2, hj'.1.1, hj'.2⟩

/-- The operations of the nodes below `n`. -/
def opsUpTo (mlgn : List Int) (n : Nat) : List (Nat × Nat) :=
  (List.range n).flatMap fun i => (((List.range mlgn.length).filter fun j => decide (i < j)).filter fun j => decide (mlgn[j]? = mlgn[i]?)).map fun j => (i, j)

/-- The connectivity after a sequence of replacements. -/
def conn (l : List (Nat × Nat)) (e : List Nat × Int) : List Nat × Int := l.foldl (fun e q => replaceNode q.1 q.2 e) e

theorem conn_append (l r : List (Nat × Nat)) (e : List Nat × Int) : conn (l ++ r) e = conn r (conn l e) := List.foldl_append

theorem conn_length (l : List (Nat × Nat)) (e : List Nat × Int) (h : ∀ q ∈ l, q.1 ≠ q.2) : (conn l e).1.length = e.1.length := by
  induction l generalizing e with
  | nil => rfl
  | cons q l ih =>
    show (conn l (replaceNode q.1 q.2 e)).1.length = _
    rw [ih _ fun x hx => h x (List.mem_cons_of_mem _ hx), replace_fst _ _ (h q List.mem_cons_self), List.length_map]

/-- Global numbers are unchanged by replacements of equal nodes. -/
theorem conn_global (mlgn : List Int) (l : List (Nat × Nat)) (e : List Nat × Int) (h : ∀ q ∈ l, q.1 ≠ q.2 ∧ Same mlgn q.2 q.1) :
    (conn l e).1.map (fun x => mlgn[x]?) = e.1.map fun x => mlgn[x]? := by
  induction l generalizing e with
  | nil => rfl
  | cons q l ih =>
    show (conn l (replaceNode q.1 q.2 e)).1.map _ = _
    rw [ih _ fun x hx => h x (List.mem_cons_of_mem _ hx), replace_fst _ _ (h q List.mem_cons_self).1, List.map_map]
    apply List.map_congr_left
    intro x _
    simp only [Function.comp_apply]
    unfold repl
    split
    · rename_i hx
      rw [hx]
      exact (h q List.mem_cons_self).2.symm
    · rfl

/-- After the operations of the nodes below `n`, no element refers to a node after one of them with the same global number. -/
theorem conn_first (mlgn : List Int) (n : Nat) (e : List Nat × Int) (hin : ∀ x ∈ e.1, x < mlgn.length) :
    (∀ x ∈ (conn (opsUpTo mlgn n) e).1, x < mlgn.length) ∧
    ∀ x ∈ (conn (opsUpTo mlgn n) e).1, ∀ y : Nat, y < n → y < x → ¬ Same mlgn x y := by
  induction n with
  | zero =>
    refine ⟨fun x hx => hin x ?_, fun x _ y hy => by omega⟩
    have : conn (opsUpTo mlgn 0) e = e := rfl
    rwa [this] at hx
  | succ n ih =>
    have e1 : opsUpTo mlgn (n+1) = opsUpTo mlgn n ++ (((List.range mlgn.length).filter fun j => decide (n < j)).filter fun j => decide (mlgn[j]? = mlgn[n]?)).map fun j => (n, j) := by
      unfold opsUpTo
      rw [List.range_succ, List.flatMap_append, List.flatMap_cons, List.flatMap_nil, List.append_nil]
    rw [e1, conn_append]
    generalize conn (opsUpTo mlgn n) e = s at ih ⊢
    -- replacements by n of the nodes in a list
    have key : ∀ (js : List Nat) (s : List Nat × Int), (∀ j ∈ js, n < j ∧ j < mlgn.length ∧ Same mlgn j n) →
        (∀ x ∈ s.1, x < mlgn.length) → (∀ x ∈ s.1, ∀ y : Nat, y < n → y < x → ¬ Same mlgn x y) →
        (∀ x ∈ (conn (js.map fun j => (n, j)) s).1, x < mlgn.length) ∧
        (∀ x ∈ (conn (js.map fun j => (n, j)) s).1, ∀ y : Nat, y < n → y < x → ¬ Same mlgn x y) ∧
        (∀ x ∈ (conn (js.map fun j => (n, j)) s).1, x ∉ js ∧ (x ≠ n → x ∈ s.1)) := by
      intro js
      induction js with
      | nil => intro s _ h1 h2; exact ⟨h1, h2, fun x hx => ⟨by simp, fun _ => hx⟩⟩
      | cons j js ihj =>
        intro s hjs h1 h2
        have hj := hjs j List.mem_cons_self
        have hs : (replaceNode n j s).1 = s.1.map (repl n j) := replace_fst n j (by omega) s
        have hmem : ∀ x ∈ (replaceNode n j s).1, (x = n ∧ j ∈ s.1) ∨ (x ∈ s.1 ∧ x ≠ j) := by
          intro x hx
          rw [hs] at hx
          obtain ⟨z, hz, rfl⟩ := List.mem_map.mp hx
          unfold repl
          split
          · rename_i h; left; exact ⟨rfl, h ▸ hz⟩
          · rename_i h; right; exact ⟨hz, h⟩
        have g1 : ∀ x ∈ (replaceNode n j s).1, x < mlgn.length := by
          intro x hx
          rcases hmem x hx with ⟨rfl, h⟩ | ⟨h, _⟩
          · have := h1 j h; omega
          · exact h1 x h
        have g2 : ∀ x ∈ (replaceNode n j s).1, ∀ y : Nat, y < n → y < x → ¬ Same mlgn x y := by
          intro x hx y hy hyx
          rcases hmem x hx with ⟨rfl, h⟩ | ⟨h, _⟩
          · intro hc
            apply h2 j h y hy (by omega)
            exact hj.2.2.trans hc
          · exact h2 x h y hy hyx
        obtain ⟨r1, r2, r3⟩ := ihj (replaceNode n j s) (fun k hk => hjs k (List.mem_cons_of_mem _ hk)) g1 g2
        refine ⟨r1, r2, ?_⟩
        intro x hx
        obtain ⟨q1, q2⟩ := r3 x hx
        have hxj : x ≠ j := by
          rintro rfl
          have := q2 (by omega)
          rcases hmem x this with ⟨h, _⟩ | ⟨_, h⟩
          · omega
          · exact h rfl
        refine ⟨?_, ?_⟩
        · intro hm
          rcases List.mem_cons.mp hm with h | h
          · exact hxj h
          · exact q1 h
        · intro hne
          rcases hmem x (q2 hne) with ⟨h, _⟩ | ⟨h, _⟩
          · exact absurd h hne
          · exact h
    have hjs : ∀ j ∈ (((List.range mlgn.length).filter fun j => decide (n < j)).filter fun j => decide (mlgn[j]? = mlgn[n]?)), n < j ∧ j < mlgn.length ∧ Same mlgn j n := by
      intro j hj
      simp only [List.mem_filter, List.mem_range, decide_eq_true_eq] at hj
      exact ⟨hj.1.2, hj.1.1, hj.2⟩
    obtain ⟨k1, k2, k3⟩ := key _ s hjs ih.1 ih.2
    refine ⟨k1, fun x hx y hy hyx hc => ?_⟩
    by_cases hyn : y = n
    · subst hyn
      apply (k3 x hx).1
      simp only [List.mem_filter, List.mem_range, decide_eq_true_eq]
      exact ⟨⟨k1 x hx, hyx⟩, hc⟩
    · exact k2 x hx y (by omega) hyx hc

/-- The external element number: it is only changed to zero, and only for triangles. -/
theorem conn_number (mlgn : List Int) (l : List (Nat × Nat)) (e : List Nat × Int) (h : ∀ q ∈ l, q.1 ≠ q.2) :
    (e.1.length ≠ 3 → (conn l e).2 = e.2) ∧ (e.2 = 0 → (conn l e).2 = 0) := by
  induction l generalizing e with
  | nil => exact ⟨fun _ => rfl, fun h => h⟩
  | cons q l ih =>
    have hq := h q List.mem_cons_self
    obtain ⟨i1, i2⟩ := ih (replaceNode q.1 q.2 e) fun x hx => h x (List.mem_cons_of_mem _ hx)
    constructor
    · intro h3
      show (conn l (replaceNode q.1 q.2 e)).2 = _
      rw [i1 (by rw [replace_fst _ _ hq, List.length_map]; exact h3), replace_snd_other _ _ _ h3]
    · intro h0
      apply i2
      by_cases h3 : e.1.length = 3
      · obtain ⟨es, w⟩ := e
        match es, h3 with
        | [a, b, c], _ =>
          rw [replace_triangle _ _ hq]
          dsimp only at h0
          rw [h0]; split <;> rfl
      · rw [replace_snd_other _ _ _ h3]; exact h0

/-- Triangles with different global nodes keep their number. -/
theorem conn_keep (mlgn : List Int) (l : List (Nat × Nat)) (h : ∀ q ∈ l, q.1 ≠ q.2 ∧ Same mlgn q.2 q.1) (a b c : Nat) (w : Int)
    (hab : ¬ Same mlgn a b) (hbc : ¬ Same mlgn b c) (hac : ¬ Same mlgn a c) : (conn l ([a, b, c], w)).2 = w := by
  induction l generalizing a b c w with
  | nil => rfl
  | cons q l ih =>
    have hq := h q List.mem_cons_self
    have hr : ∀ x, Same mlgn (repl q.1 q.2 x) x := by
      intro x
      unfold repl
      split
      · rename_i hx; rw [hx]; exact hq.2.symm
      · rfl
    have e1 : replaceNode q.1 q.2 ([a, b, c], w) = ([repl q.1 q.2 a, repl q.1 q.2 b, repl q.1 q.2 c], w) := by
      apply Prod.ext
      · rw [replace_fst _ _ hq.1]; rfl
      · rw [replace_triangle _ _ hq.1, if_neg]
        rintro (⟨_, h1⟩ | ⟨_, h1⟩ | ⟨_, h1⟩)
        · exact hab ((hr a).symm.trans ((congrArg (fun x => mlgn[x]?) h1).trans (hr b)))
        · exact hbc ((hr b).symm.trans ((congrArg (fun x => mlgn[x]?) h1).trans (hr c)))
        · exact hac ((hr a).symm.trans ((congrArg (fun x => mlgn[x]?) h1).trans (hr c)))
    show (conn l (replaceNode q.1 q.2 ([a, b, c], w))).2 = w
    rw [e1]
    apply ih fun x hx => h x (List.mem_cons_of_mem _ hx)
    · intro hc; exact hab ((hr a).symm.trans (hc.trans (hr b)))
    · intro hc; exact hbc ((hr b).symm.trans (hc.trans (hr c)))
    · intro hc; exact hac ((hr a).symm.trans (hc.trans (hr c)))

/-- A triangle in which two different nodes become the same one is ignored. -/
theorem conn_collapse (l : List (Nat × Nat)) (h : ∀ q ∈ l, q.1 ≠ q.2) (a b c : Nat) (w : Int) (a' b' c' : Nat)
    (he : (conn l ([a, b, c], w)).1 = [a', b', c']) (hc : (a ≠ b ∧ a' = b') ∨ (b ≠ c ∧ b' = c') ∨ (a ≠ c ∧ a' = c')) : (conn l ([a, b, c], w)).2 = 0 := by
  induction l generalizing a b c w with
  | nil =>
    change [a, b, c] = [a', b', c'] at he
    simp at he
    omega
  | cons q l ih =>
    have hq := h q List.mem_cons_self
    have hl := fun x hx => h x (List.mem_cons_of_mem q hx)
    let w' := (replaceNode q.1 q.2 ([a, b, c], w)).2
    have e1 : replaceNode q.1 q.2 ([a, b, c], w) = ([repl q.1 q.2 a, repl q.1 q.2 b, repl q.1 q.2 c], w') := by
      apply Prod.ext
      · rw [replace_fst _ _ hq]; rfl
      · rfl
    change (conn l (replaceNode q.1 q.2 ([a, b, c], w))).1 = _ at he
    show (conn l (replaceNode q.1 q.2 ([a, b, c], w))).2 = 0
    rw [e1] at he ⊢
    by_cases hs : ((a = q.2 ∨ b = q.2) ∧ repl q.1 q.2 a = repl q.1 q.2 b) ∨ ((b = q.2 ∨ c = q.2) ∧ repl q.1 q.2 b = repl q.1 q.2 c) ∨
      ((a = q.2 ∨ c = q.2) ∧ repl q.1 q.2 a = repl q.1 q.2 c)
    · have hw : w' = 0 := by
        show (replaceNode q.1 q.2 ([a, b, c], w)).2 = 0
        rw [replace_triangle _ _ hq, if_pos hs]
      exact (conn_number [] l _ hl).2 hw
    · apply ih hl _ _ _ _ he
      have hr : ∀ x y, x ≠ y → ¬ ((x = q.2 ∨ y = q.2) ∧ repl q.1 q.2 x = repl q.1 q.2 y) → repl q.1 q.2 x ≠ repl q.1 q.2 y := by
        intro x y hxy hn hc
        apply hn
        refine ⟨?_, hc⟩
        by_contra hne
        rw [not_or] at hne
        unfold repl at hc
        rw [if_neg hne.1, if_neg hne.2] at hc
        exact hxy hc
      rw [not_or, not_or] at hs
      rcases hc with ⟨h1, h2⟩ | ⟨h1, h2⟩ | ⟨h1, h2⟩
      · exact Or.inl ⟨hr a b h1 hs.1, h2⟩
      · exact Or.inr (Or.inl ⟨hr b c h1 hs.2.1, h2⟩)
      · exact Or.inr (Or.inr ⟨hr a c h1 hs.2.2, h2⟩)

/-- The update of the connectivity: every element keeps its global nodes and refers to the first local node of each global number; the external element
number is kept, except that it is set to zero for a triangle in which two different local nodes have the same global number. -/
theorem C21_connectivity (mlgn : List Int) (elms : List (List Nat × Int)) (hin : ∀ e ∈ elms, ∀ x ∈ e.1, x < mlgn.length) :
    (uniqueNodes mlgn elms).length = elms.length ∧
    ∀ (k : Nat) (e e' : List Nat × Int), elms[k]? = some e → (uniqueNodes mlgn elms)[k]? = some e' →
      (e'.1.map fun x => mlgn[x]?) = (e.1.map fun x => mlgn[x]?) ∧
      (∀ x ∈ e'.1, x < mlgn.length ∧ ∀ y : Nat, y < x → mlgn[y]? ≠ mlgn[x]?) ∧
      (e.1.length ≠ 3 → e'.2 = e.2) ∧
      (e.1.length = 3 → (e.1.map fun x => mlgn[x]?).Nodup → e'.2 = e.2) ∧
      (e.1.length = 3 → e.1.Nodup → ¬ (e.1.map fun x => mlgn[x]?).Nodup → e'.2 = 0) := by
  rw [uniqueNodes_eq]
  refine ⟨by simp, ?_⟩
  intro k e e' hk hk'
  rw [List.getElem?_map, hk] at hk'
  simp only [Option.map_some, Option.some.injEq] at hk'
  change conn (ops mlgn) e = e' at hk'
  have hops : ∀ q ∈ ops mlgn, q.1 ≠ q.2 ∧ Same mlgn q.2 q.1 := fun q hq => by
    have := ops_mem mlgn q hq
    exact ⟨by omega, this.2.2⟩
  have hg := conn_global mlgn (ops mlgn) e hops
  have hf := conn_first mlgn mlgn.length e (hin e (List.mem_iff_getElem?.mpr ⟨k, hk⟩))
  have hu : opsUpTo mlgn mlgn.length = ops mlgn := rfl
  rw [hu] at hf
  have hn := conn_number mlgn (ops mlgn) e fun q hq => (hops q hq).1
  rw [hk'] at hg hf hn
  have hfirst : ∀ x ∈ e'.1, x < mlgn.length ∧ ∀ y : Nat, y < x → mlgn[y]? ≠ mlgn[x]? := by
    intro x hx
    have h1 := hf.1 x hx
    exact ⟨h1, fun y hy hc => hf.2 x hx y (by omega) hy hc.symm⟩
  refine ⟨hg, hfirst, hn.1, ?_, ?_⟩
  · intro h3 hnd
    obtain ⟨es, w⟩ := e
    match es, h3 with
    | [a, b, c], _ =>
      simp only [List.map_cons, List.map_nil, List.nodup_cons, List.mem_cons, List.not_mem_nil, or_false, not_or, List.nodup_nil, and_true, not_false_eq_true] at hnd
      rw [← hk']
      exact conn_keep mlgn (ops mlgn) hops a b c w hnd.1.1 hnd.2 hnd.1.2
  · intro h3 hnl hnd
    obtain ⟨es, w⟩ := e
    match es, h3 with
    | [a, b, c], _ =>
      have hlen : e'.1.length = 3 := by
        rw [← hk', conn_length _ _ fun q hq => (hops q hq).1]; rfl
      obtain ⟨es', w'⟩ := e'
      match es', hlen with
      | [a', b', c'], _ =>
        simp only [List.map_cons, List.map_nil, List.cons.injEq, and_true] at hg
        have hfx : ∀ x ∈ [a', b', c'], ∀ y ∈ [a', b', c'], mlgn[x]? = mlgn[y]? → x = y := by
          intro x hx y hy hxy
          rcases Nat.lt_trichotomy x y with h | h | h
          · exact absurd hxy ((hfirst y hy).2 x h)
          · exact h
          · exact absurd hxy.symm ((hfirst x hx).2 y h)
        simp only [List.map_cons, List.map_nil, List.nodup_cons, List.mem_cons, List.not_mem_nil, or_false, not_or, List.nodup_nil, and_true, not_false_eq_true] at hnd hnl
        have he : (conn (ops mlgn) ([a, b, c], w)).1 = [a', b', c'] := by rw [hk']
        have := conn_collapse (ops mlgn) (fun q hq => (hops q hq).1) a b c w a' b' c' he (by
          by_cases h1 : mlgn[a]? = mlgn[b]?
          · left
            exact ⟨hnl.1.1, hfx a' (by simp) b' (by simp) (by rw [hg.1, hg.2.1, h1])⟩
          · right
            by_cases h2 : mlgn[b]? = mlgn[c]?
            · left
              exact ⟨hnl.2, hfx b' (by simp) c' (by simp) (by rw [hg.2.1, hg.2.2, h2])⟩
            · right
              by_cases h3 : mlgn[a]? = mlgn[c]?
              · exact ⟨hnl.1.2, hfx a' (by simp) c' (by simp) (by rw [hg.1, hg.2.2, h3])⟩
              · exact absurd ⟨⟨h1, h3⟩, h2⟩ hnd)
        rw [hk'] at this
        exact this

/-- Nodes 1 and 3 (from zero) are the same global node: the quadrilateral refers to the first one, and the second triangle is ignored. -/
example : uniqueNodes [5, 7, 6, 7] [([0,1,2,3], 11), ([0,2,3], 12), ([1,2,3], 13)] = [([0,1,2,1], 11), ([0,2,1], 12), ([1,2,1], 0)] := by decide

end IFEM.Props
