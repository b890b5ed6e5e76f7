import Verif.Model.Matrix
import Verif.Spec.Matrix
import Verif.Lemmas.Assem
import Mathlib.Algebra.BigOperators.Fin
import Mathlib.Algebra.BigOperators.Ring.List
import Mathlib.Tactic.Ring
/-!
# Lemmas on dense matrices
-/
namespace IFEM.Lem
open IFEM IFEM.Spec IFEM.Mat

variable {R X : Type}

/-! ## Loops of modifications -/

theorem modFold_length (pos : X → Nat) (g : X → R → R) (L : List X) (e : List R) :
    (L.foldl (fun e x => e.modify (pos x) (g x)) e).length = e.length := by
  induction L generalizing e with
  | nil => rfl
  | cons x L ih => rw [List.foldl_cons, ih, List.length_modify]

/-- Each entry goes through the modifications at its position. -/
theorem modFold_get (pos : X → Nat) (g : X → R → R) (L : List X) (e : List R) (p : Nat) :
    (L.foldl (fun e x => e.modify (pos x) (g x)) e)[p]? =
      e[p]?.map fun y => (L.filter fun x => decide (pos x = p)).foldl (fun y x => g x y) y := by
  induction L generalizing e with
  | nil => simp
  | cons x L ih =>
    rw [List.foldl_cons, ih, List.getElem?_modify]
    by_cases h : pos x = p
    · rw [List.filter_cons_of_pos (by simpa using h)]
      cases e[p]? <;> simp [h]
    · rw [List.filter_cons_of_neg (by simpa using h)]
      cases e[p]? <;> simp [h]

/-- A loop of modifications of a matrix that keeps the dimensions. -/
theorem matFold (L : List X) (f : Mat R → X → Option (Mat R)) (pos : X → Nat) (g : X → R → R) (m : Mat R)
    (hf : ∀ m' : Mat R, m'.nrow = m.nrow → m'.ncol = m.ncol → m'.elem.length = m.elem.length → ∀ x ∈ L,
      f m' x = some { m' with elem := m'.elem.modify (pos x) (g x) }) :
    L.foldlM f m = some { m with elem := L.foldl (fun e x => e.modify (pos x) (g x)) m.elem } := by
  have key : ∀ (L : List X) (m0 : Mat R), m0.nrow = m.nrow → m0.ncol = m.ncol → m0.elem.length = m.elem.length →
      (∀ m' : Mat R, m'.nrow = m.nrow → m'.ncol = m.ncol → m'.elem.length = m.elem.length → ∀ x ∈ L, f m' x = some { m' with elem := m'.elem.modify (pos x) (g x) }) →
      L.foldlM f m0 = some { m0 with elem := L.foldl (fun e x => e.modify (pos x) (g x)) m0.elem } := by
    intro L
    induction L with
    | nil => intro m0 _ _ _ _; rfl
    | cons x L ih =>
      intro m0 h1 h2 h3 hf
      rw [List.foldlM_cons, hf m0 h1 h2 h3 x List.mem_cons_self]
      simp only [Option.bind_eq_bind, Option.bind_some]
      rw [ih ⟨m0.nrow, m0.ncol, m0.elem.modify (pos x) (g x)⟩ h1 h2 (by rw [List.length_modify]; exact h3)
        (fun m' a b c y hy => hf m' a b c y (List.mem_cons_of_mem _ hy))]
      rfl
  exact key L m rfl rfl rfl hf

theorem setAt_modify (m : Mat R) (r c : Nat) (v : R) (h : 1 ≤ r ∧ r ≤ m.nrow ∧ 1 ≤ c ∧ c ≤ m.ncol) (hl : m.elem.length = m.nrow * m.ncol) :
    m.setAt? r c v = some { m with elem := m.elem.modify (r - 1 + m.nrow * (c - 1)) fun _ => v } := by
  have hlt : r - 1 + m.nrow * (c - 1) < m.elem.length := by
    rw [hl]
    calc r - 1 + m.nrow * (c-1) < m.nrow + m.nrow * (c-1) := by omega
      _ = m.nrow * (c - 1 + 1) := by ring
      _ ≤ m.nrow * m.ncol := Nat.mul_le_mul_left _ (by omega)
  unfold setAt?
  rw [if_pos ⟨h.1, h.2.1, h.2.2.1, h.2.2.2, hlt⟩]
  congr 2
  apply List.ext_getElem?
  intro p
  rw [List.getElem?_modify]
  by_cases hp : r - 1 + m.nrow * (c - 1) = p
  · subst hp
    rw [List.getElem?_set_self hlt, List.getElem?_eq_getElem hlt]; simp
  · rw [List.getElem?_set_ne hp]; simp [hp]

theorem addAt_modify [Add R] (m : Mat R) (r c : Nat) (v : R) (h : 1 ≤ r ∧ r ≤ m.nrow ∧ 1 ≤ c ∧ c ≤ m.ncol) (hl : m.elem.length = m.nrow * m.ncol) :
    m.addAt? r c v = some { m with elem := m.elem.modify (r - 1 + m.nrow * (c - 1)) fun y => y + v } := by
  have hlt : r - 1 + m.nrow * (c - 1) < m.elem.length := by
    rw [hl]
    calc r - 1 + m.nrow * (c-1) < m.nrow + m.nrow * (c-1) := by omega
      _ = m.nrow * (c - 1 + 1) := by ring
      _ ≤ m.nrow * m.ncol := Nat.mul_le_mul_left _ (by omega)
  unfold addAt?
  rw [if_pos (by omega), show ((r : Int) - 1).toNat = r - 1 by omega, show ((c : Int) - 1).toNat = c - 1 by omega, List.getElem?_eq_getElem hlt]
  dsimp only
  congr 2
  apply List.ext_getElem?
  intro p
  rw [List.getElem?_modify]
  by_cases hp : r - 1 + m.nrow * (c - 1) = p
  · subst hp
    rw [List.getElem?_set_self hlt, List.getElem?_eq_getElem hlt]; simp
  · rw [List.getElem?_set_ne hp]; simp [hp]

/-! ## Index pairs -/

theorem mem_pairs (m n : Nat) (q : Nat × Nat) : q ∈ pairs m n ↔ q.1 < m ∧ q.2 < n := by
  obtain ⟨a, b⟩ := q
  simp [pairs]

theorem nodup_pairs (m n : Nat) : (pairs m n).Nodup := by
  unfold pairs
  rw [List.nodup_flatMap]
  refine ⟨fun i _ => (List.nodup_range).map fun a b h => by simpa using h, ?_⟩
  refine List.Pairwise.imp_of_mem ?_ (List.nodup_range (n := m))
  intro a b _ _ hab x ha hb
  obtain ⟨_, _, rfl⟩ := List.mem_map.mp ha
  obtain ⟨_, _, h⟩ := List.mem_map.mp hb
  simp at h
  exact hab h.1.symm

theorem filter_single (L : List X) (P : X → Bool) (a : X) (hn : L.Nodup) (ha : a ∈ L) (h : ∀ x ∈ L, P x = true ↔ x = a) : L.filter P = [a] := by
  induction L with
  | nil => simp at ha
  | cons x L ih =>
    obtain ⟨hx, hn'⟩ := List.nodup_cons.mp hn
    by_cases hp : P x = true
    · rw [List.filter_cons_of_pos hp]
      have := (h x List.mem_cons_self).mp hp
      subst this
      congr 1
      rw [List.filter_eq_nil_iff]
      intro y hy hc
      have := (h y (List.mem_cons_of_mem _ hy)).mp hc
      exact hx (this ▸ hy)
    · rw [List.filter_cons_of_neg hp]
      have hne : a ≠ x := fun e => hp ((h x List.mem_cons_self).mpr e.symm)
      exact ih hn' (by rcases List.mem_cons.mp ha with e | e; exact absurd e hne; exact e) fun y hy => h y (List.mem_cons_of_mem _ hy)

theorem filter_none (L : List X) (P : X → Bool) (h : ∀ x ∈ L, P x = false) : L.filter P = [] := by
  rw [List.filter_eq_nil_iff]
  intro x hx
  rw [h x hx]; simp

/-! ## Representation -/

variable {r c : Nat}

theorem rep_idx {i j : Nat} (hi : i < r) (hj : j < c) : i + r * j < r * c := by
  calc i + r * j < r + r * j := by omega
    _ = r * (j + 1) := by ring
    _ ≤ r * c := Nat.mul_le_mul_left _ (by omega)

theorem rep_get {m : Mat R} {A : Matrix (Fin r) (Fin c) R} (h : Rep m A) (i j : Nat) (hi : i < r) (hj : j < c) :
    m.get? ((i : Int) + 1) ((j : Int) + 1) = some (A ⟨i, hi⟩ ⟨j, hj⟩) := by
  unfold Mat.get?
  rw [h.rows, h.cols, if_pos (by omega), show ((i : Int) + 1 - 1).toNat = i by omega, show ((j : Int) + 1 - 1).toNat = j by omega]
  exact h.ent ⟨i, hi⟩ ⟨j, hj⟩

theorem rep_val [Zero R] {m : Mat R} {A : Matrix (Fin r) (Fin c) R} (h : Rep m A) (i j : Nat) (hi : i < r) (hj : j < c) :
    m.val ((i : Int) + 1) ((j : Int) + 1) = A ⟨i, hi⟩ ⟨j, hj⟩ := by
  unfold Mat.val
  rw [rep_get h i j hi hj]; rfl

theorem rep_opGet {m : Mat R} {t : Bool} {A : Matrix (Fin r) (Fin c) R} (h : RepOp m t A) (i j : Nat) (hi : i < r) (hj : j < c) :
    opGet? m t i j = some (A ⟨i, hi⟩ ⟨j, hj⟩) := by
  unfold opGet?
  cases t with
  | false => exact rep_get h i j hi hj
  | true =>
    have h' : Rep m A.transpose := h
    exact rep_get h' j i hj hi

theorem repOp_dims {m : Mat R} {t : Bool} {A : Matrix (Fin r) (Fin c) R} (h : RepOp m t A) :
    (if t then m.ncol else m.nrow) = r ∧ (if t then m.nrow else m.ncol) = c := by
  cases t with
  | false =>
    have h' : Rep m A := h
    exact ⟨h'.rows, h'.cols⟩
  | true =>
    have h' : Rep m A.transpose := h
    exact ⟨h'.cols, h'.rows⟩

/-- A matrix of the code holds exactly one matrix. -/
theorem rep_unique {m : Mat R} {A B : Matrix (Fin r) (Fin c) R} (h1 : Rep m A) (h2 : Rep m B) : A = B := by
  ext i j
  have := (h1.ent i j).symm.trans (h2.ent i j)
  simpa using this

/-- Every position is the one of exactly one pair of indices. -/
theorem pos_pair (p : Nat) (hp : p < r * c) : ∃ (i j : Nat), i < r ∧ j < c ∧ p = i + r * j := by
  have hr : 0 < r := by
    rcases Nat.eq_zero_or_pos r with h | h
    · subst h; simp at hp
    · exact h
  refine ⟨p % r, p / r, Nat.mod_lt _ hr, Nat.div_lt_of_lt_mul hp, (Nat.mod_add_div p r).symm⟩

/-- The same matrix is represented in one way only. -/
theorem rep_eq {m m' : Mat R} {A : Matrix (Fin r) (Fin c) R} (h1 : Rep m A) (h2 : Rep m' A) : m = m' := by
  cases m; cases m'
  obtain ⟨a1, a2, a3, a4⟩ := h1
  obtain ⟨b1, b2, b3, b4⟩ := h2
  simp only at a1 a2 a3 a4 b1 b2 b3 b4
  rw [a1, a2, b1, b2]
  congr 1
  apply List.ext_getElem?
  intro p
  by_cases hp : p < r * c
  · obtain ⟨i, j, hi, hj, rfl⟩ := pos_pair p hp
    rw [a4 ⟨i, hi⟩ ⟨j, hj⟩, b4 ⟨i, hi⟩ ⟨j, hj⟩]
  · rw [List.getElem?_eq_none (by omega), List.getElem?_eq_none (by omega)]

/-- The entries of a column. -/
theorem rep_col {m : Mat R} {A : Matrix (Fin r) (Fin c) R} (h : Rep m A) (j : Fin c) : m.col j.1 = List.ofFn fun i => A i j := by
  have hle : r * j.1 + r ≤ r * c := by
    calc r * j.1 + r = r * (j.1 + 1) := by ring
      _ ≤ r * c := Nat.mul_le_mul_left _ (by omega)
  unfold col
  rw [h.rows]
  apply List.ext_getElem?
  intro i
  rw [List.getElem?_take]
  by_cases hi : i < r
  · rw [if_pos hi, List.getElem?_drop, Nat.add_comm, h.ent ⟨i, hi⟩ j, List.getElem?_eq_getElem (by simpa using hi), List.getElem_ofFn]
  · rw [if_neg hi, List.getElem?_eq_none (by simpa using hi)]

/-- The result of a loop of modifications of a matrix. -/
theorem rep_fold {m : Mat R} {A : Matrix (Fin r) (Fin c) R} (h : Rep m A) (L : List X) (f : Mat R → X → Option (Mat R)) (pos : X → Nat) (g : X → R → R)
    (hf : ∀ m' : Mat R, m'.nrow = r → m'.ncol = c → m'.elem.length = r * c → ∀ x ∈ L, f m' x = some { m' with elem := m'.elem.modify (pos x) (g x) }) :
    ∃ m', L.foldlM f m = some m' ∧
      Rep m' (fun i j => (L.filter fun x => decide (pos x = i.1 + r * j.1)).foldl (fun y x => g x y) (A i j)) := by
  refine ⟨_, matFold L f pos g m (fun m' a b d => hf m' (a.trans h.rows) (b.trans h.cols) (d.trans h.size)), ⟨h.rows, h.cols, ?_, fun i j => ?_⟩⟩
  · show (L.foldl _ m.elem).length = _
    rw [modFold_length]; exact h.size
  · show (L.foldl _ m.elem)[_]? = _
    rw [modFold_get, h.ent i j]; rfl

theorem foldl_add_sum [AddCommMonoid R] (L : List X) (v : X → R) (y : R) : L.foldl (fun y x => y + v x) y = y + (L.map v).sum := by
  induction L generalizing y with
  | nil => simp
  | cons x L ih => rw [List.foldl_cons, ih, List.map_cons, List.sum_cons, add_assoc]

theorem sum_filter [AddCommMonoid R] (L : List X) (P : X → Prop) [DecidablePred P] (v : X → R) :
    ((L.filter fun x => decide (P x)).map v).sum = (L.map fun x => if P x then v x else 0).sum := by
  induction L with
  | nil => rfl
  | cons x L ih =>
    by_cases h : P x
    · rw [List.filter_cons_of_pos (by simpa using h), List.map_cons, List.map_cons, List.sum_cons, List.sum_cons, ih, if_pos h]
    · rw [List.filter_cons_of_neg (by simpa using h), List.map_cons, List.sum_cons, ih, if_neg h, zero_add]

theorem sum_range_fin [AddCommMonoid R] (n : Nat) (f : Nat → R) : ((List.range n).map f).sum = ∑ i : Fin n, f i := by
  rw [Finset.sum_fin_eq_sum_range, Finset.sum_range, ← List.sum_ofFn]
  congr 1
  apply List.ext_getElem
  · simp
  · intro i h1 h2
    simp at h1
    simp [h1]

theorem sum_pairs [AddCommMonoid R] (m n : Nat) (f : Nat × Nat → R) : ((pairs m n).map f).sum = ∑ i : Fin m, ∑ j : Fin n, f (i, j) := by
  rw [← sum_range_fin m fun i => ∑ j : Fin n, f (i, j)]
  unfold pairs
  induction List.range m with
  | nil => rfl
  | cons a l ih =>
    rw [List.flatMap_cons, List.map_append, List.sum_append, ih, List.map_cons, List.sum_cons, List.map_map]
    congr 1
    exact sum_range_fin n fun j => f (a, j)

theorem sum_triples [AddCommMonoid R] (m n k : Nat) (f : Nat × Nat × Nat → R) :
    ((triples m n k).map f).sum = ∑ i : Fin m, ∑ j : Fin n, ∑ l : Fin k, f (i, j, l) := by
  rw [← sum_range_fin m fun i => ∑ j : Fin n, ∑ l : Fin k, f (i, j, l)]
  unfold triples
  induction List.range m with
  | nil => rfl
  | cons a l ih =>
    rw [List.flatMap_cons, List.map_append, List.sum_append, ih, List.map_cons, List.sum_cons, List.map_map]
    congr 1
    exact sum_pairs n k fun q => f (a, q)

theorem mem_triples (m n k : Nat) (q : Nat × Nat × Nat) : q ∈ triples m n k ↔ q.1 < m ∧ q.2.1 < n ∧ q.2.2 < k := by
  obtain ⟨a, b⟩ := q
  simp only [triples, List.mem_flatMap, List.mem_range, List.mem_map, Prod.mk.injEq]
  constructor
  · rintro ⟨i, hi, q, hq, rfl, rfl⟩
    have := (mem_pairs _ _ _).mp hq
    exact ⟨hi, this.1, this.2⟩
  · rintro ⟨h1, h2, h3⟩
    exact ⟨a, h1, b, (mem_pairs _ _ _).mpr ⟨h2, h3⟩, rfl, rfl⟩

theorem resize_force [Zero R] (m : Mat R) (hw : m.WF) (M N : Nat) : Rep (m.resize M N true) (fun (_ : Fin M) (_ : Fin N) => (0 : R)) := by
  unfold Mat.resize
  dsimp only
  rw [if_pos rfl]
  have hw' : m.elem.length = m.nrow * m.ncol := hw
  by_cases h1 : m.nrow * m.ncol = M * N
  · rw [if_pos h1]
    dsimp only
    have he : ∀ p, p < M * N → (m.elem.map fun _ => (0 : R))[p]? = some 0 := by
      intro p hp
      rw [List.getElem?_map, List.getElem?_eq_getElem (by omega)]; rfl
    by_cases h2 : m.nrow = M ∧ m.ncol = N
    · rw [if_pos h2]
      exact ⟨h2.1, h2.2, by simp; omega, fun i j => he _ (rep_idx i.2 j.2)⟩
    · rw [if_neg h2, if_pos h1]
      exact ⟨rfl, rfl, by simp; omega, fun i j => he _ (rep_idx i.2 j.2)⟩
  · rw [if_neg h1]
    dsimp only
    by_cases h2 : 0 = M ∧ 0 = N
    · rw [if_pos h2]
      obtain ⟨rfl, rfl⟩ := h2
      exact ⟨rfl, rfl, rfl, fun i => i.elim0⟩
    · rw [if_neg h2]
      by_cases h3 : 0 * 0 = M * N
      · rw [if_pos h3]
        refine ⟨rfl, rfl, by simpa using h3, fun i j => ?_⟩
        have := rep_idx i.2 j.2
        omega
      · rw [if_neg h3]
        simp only [Bool.not_true, Bool.false_and, Bool.false_eq_true, if_false, List.take_nil, List.nil_append, List.length_nil, Nat.sub_zero]
        refine ⟨rfl, rfl, by simp, fun i j => ?_⟩
        rw [List.getElem?_replicate, if_pos (rep_idx i.2 j.2)]

/-- A loop in which every entry is changed at most once. -/
theorem rep_block {m : Mat R} {A : Matrix (Fin r) (Fin c) R} (h : Rep m A) (L : List X) (hn : L.Nodup) (f : Mat R → X → Option (Mat R)) (fi fj : X → Nat)
    (g : X → R → R) (A' : Matrix (Fin r) (Fin c) R) (hi : ∀ x ∈ L, fi x < r)
    (hf : ∀ m' : Mat R, m'.nrow = r → m'.ncol = c → m'.elem.length = r * c → ∀ x ∈ L,
      f m' x = some { m' with elem := m'.elem.modify (fi x + r * fj x) (g x) })
    (hA : ∀ i j, (∃ x ∈ L, (∀ y ∈ L, (fi y = i.1 ∧ fj y = j.1) ↔ y = x) ∧ A' i j = g x (A i j)) ∨
      ((∀ x ∈ L, ¬ (fi x = i.1 ∧ fj x = j.1)) ∧ A' i j = A i j)) :
    ∃ m', L.foldlM f m = some m' ∧ Rep m' A' := by
  obtain ⟨m', h1, h2⟩ := rep_fold h L f (fun x => fi x + r * fj x) g hf
  refine ⟨m', h1, ?_⟩
  have : A' = fun i j => (L.filter fun x => decide (fi x + r * fj x = i.1 + r * j.1)).foldl (fun y x => g x y) (A i j) := by
    funext i j
    have hinj : ∀ x ∈ L, (fi x + r * fj x = i.1 + r * j.1) ↔ (fi x = i.1 ∧ fj x = j.1) := by
      intro x hx
      constructor
      · intro e
        have e1 : fi x = i.1 := by
          have := congrArg (· % r) e
          simpa [Nat.add_mul_mod_self_left, Nat.mod_eq_of_lt (hi x hx), Nat.mod_eq_of_lt i.2] using this
        refine ⟨e1, ?_⟩
        rw [e1] at e
        exact Nat.eq_of_mul_eq_mul_left (Nat.lt_of_le_of_lt (Nat.zero_le _) i.2) (Nat.add_left_cancel e)
      · rintro ⟨e1, e2⟩; rw [e1, e2]
    rcases hA i j with ⟨x, hx, hu, e⟩ | ⟨hno, e⟩
    · rw [filter_single L _ x hn hx (fun y hy => by rw [decide_eq_true_eq, hinj y hy]; exact hu y hy), e]; rfl
    · rw [filter_none L _ (fun y hy => by rw [decide_eq_false_iff_not, hinj y hy]; exact hno y hy), e]; rfl
  rw [this]; exact h2

/-- Reading an entry and storing a value computed from it. -/
theorem readSet_modify (m : Mat R) (i j : Nat) (F : R → R) (hi : i < m.nrow) (hj : j < m.ncol) (hl : m.elem.length = m.nrow * m.ncol) :
    (m.elem[i + m.nrow * j]?.bind fun x => m.setAt? (i + 1) (j + 1) (F x)) = some { m with elem := m.elem.modify (i + m.nrow * j) F } := by
  have hlt : i + m.nrow * j < m.elem.length := by rw [hl]; exact rep_idx hi hj
  rw [List.getElem?_eq_getElem hlt, Option.bind_some, setAt_modify m _ _ _ ⟨by omega, by omega, by omega, by omega⟩ hl]
  simp only [Nat.add_sub_cancel]
  congr 2
  apply List.ext_getElem?
  intro p
  rw [List.getElem?_modify, List.getElem?_modify]
  by_cases hp : i + m.nrow * j = p
  · subst hp
    rw [List.getElem?_eq_getElem hlt]; simp
  · simp [hp]

/-- The same for a loop on an array. -/
theorem listFold (L : List X) (f : List R → X → Option (List R)) (pos : X → Nat) (g : X → R → R) (e : List R)
    (hf : ∀ e' : List R, e'.length = e.length → ∀ x ∈ L, f e' x = some (e'.modify (pos x) (g x))) :
    L.foldlM f e = some (L.foldl (fun e x => e.modify (pos x) (g x)) e) := by
  induction L generalizing e with
  | nil => rfl
  | cons x L ih =>
    rw [List.foldlM_cons, hf e rfl x List.mem_cons_self]
    simp only [Option.bind_eq_bind, Option.bind_some, List.foldl_cons]
    exact ih _ (fun e' he y hy => hf e' (by rw [he, List.length_modify]) y (List.mem_cons_of_mem _ hy))

theorem set_modify (e : List R) (p : Nat) (F : R → R) (y : R) (h : e[p]? = some y) : e.set p (F y) = e.modify p F := by
  apply List.ext_getElem?
  intro q
  rw [List.getElem?_modify]
  obtain ⟨hp, hy⟩ := List.getElem?_eq_some_iff.mp h
  by_cases hq : p = q
  · subst hq
    rw [List.getElem?_set_self hp, h]; simp
  · rw [List.getElem?_set_ne hq]; simp [hq]

/-! ## Moving columns -/

theorem memmove_spec (a : List R) (dst src n : Nat) (h : src + n ≤ a.length ∧ dst + n ≤ a.length) :
    ∃ b, memmove a dst src n = some b ∧ b.length = a.length ∧ ∀ p, b[p]? = if dst ≤ p ∧ p < dst + n then a[src + (p - dst)]? else a[p]? := by
  refine ⟨_, if_pos h, ?_, fun p => ?_⟩
  · simp only [List.length_append, List.length_take, List.length_drop]; omega
  · have l1 : (a.take dst).length = dst := by rw [List.length_take]; omega
    have l2 : ((a.drop src).take n).length = n := by rw [List.length_take, List.length_drop]; omega
    by_cases h1 : p < dst
    · rw [if_neg (by omega), List.append_assoc, List.getElem?_append_left (by omega), List.getElem?_take, if_pos h1]
    · by_cases h2 : p < dst + n
      · rw [if_pos (by omega), List.getElem?_append_left (by rw [List.length_append]; omega), List.getElem?_append_right (by omega), l1,
          List.getElem?_take, if_pos (by omega), List.getElem?_drop]
      · rw [if_neg (by omega), List.getElem?_append_right (by rw [List.length_append]; omega), List.length_append, l1, l2, List.getElem?_drop]
        congr 1; omega

theorem write_spec (a v : List R) (i : Nat) (h : i + v.length ≤ a.length) :
    ∃ b, write a i v = some b ∧ b.length = a.length ∧ ∀ p, b[p]? = if i ≤ p ∧ p < i + v.length then v[p - i]? else a[p]? := by
  refine ⟨_, if_pos h, ?_, fun p => ?_⟩
  · simp only [List.length_append, List.length_take, List.length_drop]; omega
  · have l1 : (a.take i).length = i := by rw [List.length_take]; omega
    by_cases h1 : p < i
    · rw [if_neg (by omega), List.append_assoc, List.getElem?_append_left (by omega), List.getElem?_take, if_pos h1]
    · by_cases h2 : p < i + v.length
      · rw [if_pos (by omega), List.getElem?_append_left (by rw [List.length_append]; omega), List.getElem?_append_right (by omega), l1]
      · rw [if_neg (by omega), List.getElem?_append_right (by rw [List.length_append]; omega), List.length_append, l1, List.getElem?_drop]
        congr 1; omega

/-- A loop over the columns from the last to the first: step `c` reads old data below `lo (c+1)` and produces the values from `hi c` to `hi (c+1)`. -/
theorem revLoop (f : List R → Nat → Option (List R)) (e0 : List R) (lo hi : Nat → Nat) (val : Nat → Option R) (n : Nat) (e : List R)
    (hhi : ∀ c, hi c ≤ hi (c + 1))
    (hf : ∀ c < n, ∀ e : List R, e.length = e0.length → (∀ p < lo (c + 1), e[p]? = e0[p]?) → ∃ e', f e c = some e' ∧ e'.length = e0.length ∧
      (∀ p < lo c, e'[p]? = e0[p]?) ∧ (∀ p ≥ hi (c + 1), e'[p]? = e[p]?) ∧ ∀ p, hi c ≤ p → p < hi (c + 1) → e'[p]? = val p)
    (he : e.length = e0.length) (hk : ∀ p < lo n, e[p]? = e0[p]?) :
    ∃ e', (List.range n).reverse.foldlM f e = some e' ∧ e'.length = e0.length ∧ (∀ p < lo 0, e'[p]? = e0[p]?) ∧
      (∀ p ≥ hi n, e'[p]? = e[p]?) ∧ ∀ p, hi 0 ≤ p → p < hi n → e'[p]? = val p := by
  induction n generalizing e with
  | zero => exact ⟨e, rfl, he, hk, fun p _ => rfl, fun p a b => by omega⟩
  | succ n ih =>
    obtain ⟨e1, s1, s2, s3, s4, s5⟩ := hf n (by omega) e he hk
    obtain ⟨e2, t1, t2, t3, t4, t5⟩ := ih e1 (fun c hc => hf c (by omega)) s2 s3
    refine ⟨e2, ?_, t2, t3, fun p hp => ?_, fun p h1 h2 => ?_⟩
    · rw [List.range_succ, List.reverse_append, List.reverse_singleton, List.singleton_append, List.foldlM_cons, s1]
      exact t1
    · rw [t4 p (le_trans (hhi n) hp), s4 p hp]
    · by_cases h3 : p < hi n
      · exact t5 p h1 h3
      · rw [t4 p (by omega)]; exact s5 p (by omega) h2

/-- A loop over the columns from the first to the last: step `c` reads old data from `lo c` on and produces the values from `hi c` to `hi (c+1)`. -/
theorem fwdLoop (f : List R → Nat → Option (List R)) (e0 : List R) (lo hi : Nat → Nat) (val : Nat → Option R) (n : Nat)
    (hhi : ∀ c, hi c ≤ hi (c + 1))
    (hf : ∀ c < n, ∀ e : List R, e.length = e0.length → (∀ p ≥ lo c, e[p]? = e0[p]?) → ∃ e', f e c = some e' ∧ e'.length = e0.length ∧
      (∀ p ≥ lo (c + 1), e'[p]? = e0[p]?) ∧ (∀ p < hi c, e'[p]? = e[p]?) ∧ ∀ p, hi c ≤ p → p < hi (c + 1) → e'[p]? = val p) :
    ∃ e', (List.range n).foldlM f e0 = some e' ∧ e'.length = e0.length ∧ (∀ p ≥ lo n, e'[p]? = e0[p]?) ∧
      (∀ p < hi 0, e'[p]? = e0[p]?) ∧ ∀ p, hi 0 ≤ p → p < hi n → e'[p]? = val p := by
  induction n with
  | zero => exact ⟨e0, rfl, rfl, fun p _ => rfl, fun p _ => rfl, fun p a b => by omega⟩
  | succ n ih =>
    obtain ⟨e1, t1, t2, t3, t4, t5⟩ := ih (fun c hc => hf c (by omega))
    obtain ⟨e2, s1, s2, s3, s4, s5⟩ := hf n (by omega) e1 t2 t3
    have mono : hi 0 ≤ hi n := by
      clear hf ih t1 t2 t3 t4 t5 s1 s2 s3 s4 s5
      induction n with
      | zero => exact le_refl _
      | succ n ih => exact le_trans ih (hhi n)
    refine ⟨e2, ?_, s2, s3, fun p hp => ?_, fun p h1 h2 => ?_⟩
    · rw [List.range_succ, List.foldlM_append, t1]
      simp only [Option.bind_eq_bind, Option.bind_some, List.foldlM_cons, List.foldlM_nil, s1, Option.pure_def]
    · rw [s4 p (by omega), t4 p hp]
    · by_cases h3 : p < hi n
      · rw [s4 p h3]; exact t5 p h1 h3
      · exact s5 p (by omega) h2

end IFEM.Lem
