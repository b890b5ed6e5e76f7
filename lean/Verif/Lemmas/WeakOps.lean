import Verif.Spec.WeakOps
import Verif.Props.Matrix
import Verif.Props.MatrixBlock
import Mathlib.Tactic.Ring
/-!
# Lemmas on the weak operators
-/
namespace IFEM.Weak
open IFEM IFEM.Spec IFEM.Spec.Weak IFEM.Lem IFEM.Mat IFEM.Props

variable {R : Type} [Field R] {n c d r s p : Nat}

theorem AddsForm.congr {f : Mat R → Option (Mat R)} {T T' : (Fin r → R) → (Fin s → R) → R} (h : AddsForm r s f T) (e : ∀ v u, T v u = T' v u) :
    AddsForm r s f T' := by
  intro m E hm
  obtain ⟨m', E', a, b, hh⟩ := h m E hm
  exact ⟨m', E', a, b, fun v u => by rw [hh, e]⟩

theorem AddsForm.comp {f g : Mat R → Option (Mat R)} {T S : (Fin r → R) → (Fin s → R) → R} (h : AddsForm r s f T) (h2 : AddsForm r s g S) :
    AddsForm r s (fun m => (f m).bind g) (fun v u => T v u + S v u) := by
  intro m E hm
  obtain ⟨m', E', a, b, hh⟩ := h m E hm
  obtain ⟨m2, E2, a2, b2, hh2⟩ := h2 m' E' b
  refine ⟨m2, E2, ?_, b2, fun v u => by rw [hh2, hh, add_assoc]⟩
  show (f m).bind g = _
  rw [a]; exact a2

theorem AddsForm.id : AddsForm r s (fun m : Mat R => some m) (fun _ _ => 0) :=
  fun m E hm => ⟨m, E, rfl, hm, fun v u => (add_zero _).symm⟩

theorem AddsForm.fold {X : Type} (L : List X) (f : Mat R → X → Option (Mat R)) (T : X → (Fin r → R) → (Fin s → R) → R)
    (h : ∀ x ∈ L, AddsForm r s (fun m => f m x) (T x)) : AddsForm r s (fun m => L.foldlM f m) (fun v u => (L.map fun x => T x v u).sum) := by
  induction L with
  | nil => exact AddsForm.id
  | cons x L ih =>
    refine AddsForm.congr (f := fun m => (x :: L).foldlM f m) (T := fun v u => T x v u + (L.map fun x => T x v u).sum) ?_ (fun v u => by rw [List.map_cons, List.sum_cons])
    intro m E hm
    exact AddsForm.comp (h x List.mem_cons_self) (ih fun y hy => h y (List.mem_cons_of_mem _ hy)) m E hm

theorem AddsVec.congr {f : List R → Option (List R)} {T T' : (Fin r → R) → R} (h : AddsVec r f T) (e : ∀ v, T v = T' v) : AddsVec r f T' := by
  intro E
  obtain ⟨E', a, hh⟩ := h E
  exact ⟨E', a, fun v => by rw [hh, e]⟩

theorem AddsVec.comp {f g : List R → Option (List R)} {T S : (Fin r → R) → R} (h : AddsVec r f T) (h2 : AddsVec r g S) :
    AddsVec r (fun m => (f m).bind g) (fun v => T v + S v) := by
  intro E
  obtain ⟨E', a, hh⟩ := h E
  obtain ⟨E2, a2, hh2⟩ := h2 E'
  refine ⟨E2, ?_, fun v => by rw [hh2, hh, add_assoc]⟩
  show (f _).bind g = _
  rw [a]; exact a2

theorem AddsVec.fold {X : Type} (L : List X) (f : List R → X → Option (List R)) (T : X → (Fin r → R) → R)
    (h : ∀ x ∈ L, AddsVec r (fun m => f m x) (T x)) : AddsVec r (fun m => L.foldlM f m) (fun v => (L.map fun x => T x v).sum) := by
  induction L with
  | nil => exact fun e => ⟨e, rfl, fun v => (add_zero _).symm⟩
  | cons x L ih =>
    refine AddsVec.congr (f := fun m => (x :: L).foldlM f m) (T := fun v => T x v + (L.map fun x => T x v).sum) ?_ (fun v => by rw [List.map_cons, List.sum_cons])
    intro E
    exact AddsVec.comp (h x List.mem_cons_self) (ih fun y hy => h y (List.mem_cons_of_mem _ hy)) E

theorem foldlM_some' {X Y : Type} (L : List X) (f : Y → X → Y) (y : Y) : L.foldlM (fun y x => some (f y x)) y = some (L.foldl f y) := by
  induction L generalizing y with
  | nil => rfl
  | cons x L ih => rw [List.foldlM_cons, List.foldl_cons]; exact ih _

/-! ## Forms of matrices -/

theorem bil_add (E F : Matrix (Fin r) (Fin s) R) (v : Fin r → R) (u : Fin s → R) : bil (E + F) v u = bil E v u + bil F v u := by
  unfold bil
  rw [← Finset.sum_add_distrib]
  refine Finset.sum_congr rfl fun i _ => ?_
  rw [← Finset.sum_add_distrib]
  exact Finset.sum_congr rfl fun j _ => by rw [Matrix.add_apply]; ring

theorem bil_smul (α : R) (E : Matrix (Fin r) (Fin s) R) (v : Fin r → R) (u : Fin s → R) : bil (α • E) v u = α * bil E v u := by
  unfold bil
  rw [Finset.mul_sum]
  refine Finset.sum_congr rfl fun i _ => ?_
  rw [Finset.mul_sum]
  exact Finset.sum_congr rfl fun j _ => by rw [Matrix.smul_apply, smul_eq_mul]; ring

theorem bil_outer (α : R) (x : Fin r → R) (y : Fin s → R) (v : Fin r → R) (u : Fin s → R) :
    bil (Matrix.of fun i j => α * x i * y j) v u = α * (∑ i, x i * v i) * ∑ j, y j * u j := by
  unfold bil
  rw [mul_assoc, Finset.sum_mul_sum, Finset.mul_sum]
  refine Finset.sum_congr rfl fun i _ => ?_
  rw [Finset.mul_sum]
  exact Finset.sum_congr rfl fun j _ => by rw [Matrix.of_apply]; ring

theorem bil_mul (A : Matrix (Fin r) (Fin d) R) (B : Matrix (Fin d) (Fin s) R) (v : Fin r → R) (u : Fin s → R) :
    bil (A * B) v u = ∑ l, (∑ i, A i l * v i) * ∑ j, B l j * u j := by
  have h : ∀ i : Fin r, (∑ j : Fin s, v i * (A * B) i j * u j) = ∑ l : Fin d, ∑ j : Fin s, A i l * v i * (B l j * u j) := by
    intro i
    rw [Finset.sum_comm]
    refine Finset.sum_congr rfl fun j _ => ?_
    rw [Matrix.mul_apply, Finset.mul_sum, Finset.sum_mul]
    exact Finset.sum_congr rfl fun l _ => by ring
  unfold bil
  rw [Finset.sum_congr rfl fun i _ => h i, Finset.sum_comm]
  exact Finset.sum_congr rfl fun l _ => (Finset.sum_mul_sum _ _ _ _).symm

/-- Two matrices with the same form are equal. -/
theorem bil_inj (E F : Matrix (Fin r) (Fin s) R) (h : ∀ v u, bil E v u = bil F v u) : E = F := by
  funext i j
  have := h (fun a => if a = i then 1 else 0) (fun b => if b = j then 1 else 0)
  simpa [bil] using this

theorem outerTo_add (X : Fin r → R) (Y : Fin s → R) (α : R) :
    AddsForm r s (fun m => outerTo m (List.ofFn X) (List.ofFn Y) true α) (fun v u => α * (∑ i, X i * v i) * ∑ j, Y j * u j) := by
  intro m E hm
  obtain ⟨m', h1, h2⟩ := (C60_outer m X Y α).2 E hm
  refine ⟨m', _, by show outerTo _ _ _ _ _ = _; unfold outerTo; rw [h1]; rfl, h2, fun v u => ?_⟩
  show bil (E + Matrix.of fun i j => α * X i * Y j) v u = _
  rw [bil_add, bil_outer]

theorem outerTo_new (m : Mat R) (hm : m.WF) (X : Fin r → R) (Y : Fin s → R) (α : R) :
    ∃ m', outerTo m (List.ofFn X) (List.ofFn Y) false α = some m' ∧ Rep m' (Matrix.of fun i j => α * X i * Y j) := by
  obtain ⟨m', h1, h2⟩ := (C60_outer m X Y α).1 hm
  exact ⟨m', by unfold outerTo; rw [h1]; rfl, h2⟩

theorem empty_wf : (empty : Mat R).WF := rfl

theorem comp_lt {i k : Nat} (hi : i < n) (hk : k < c) : c * i + k < n * c := by
  calc c * i + k < c * i + c := by omega
    _ = c * (i+1) := by ring
    _ ≤ c * n := Nat.mul_le_mul_left _ hi
    _ = n * c := Nat.mul_comm _ _

theorem sum_ite_fin (q : Nat) (hq : q < r) (f : Fin r → R) : (∑ i : Fin r, if q = i.1 then f i else 0) = f ⟨q, hq⟩ := by
  rw [Finset.sum_eq_single ⟨q, hq⟩]
  · rw [if_pos rfl]
  · intro b _ hb
    rw [if_neg (fun h => hb (Fin.ext h.symm))]
  · intro h; exact absurd (Finset.mem_univ _) h

/-- A loop that adds values to entries of the matrix. -/
theorem addEntries {X : Type} (L : List X) (f : Mat R → X → Option (Mat R)) (fi fj : X → Nat) (w : X → R) (hi : ∀ x ∈ L, fi x < r) (hj : ∀ x ∈ L, fj x < s)
    (hf : ∀ m' : Mat R, m'.nrow = r → m'.ncol = s → ∀ x ∈ L, f m' x = m'.addAt? ((fi x : Int) + 1) ((fj x : Int) + 1) (w x)) :
    AddsForm r s (fun m => L.foldlM f m) (fun v u => (L.map fun x => (if h : fi x < r ∧ fj x < s then v ⟨fi x, h.1⟩ * w x * u ⟨fj x, h.2⟩ else 0)).sum) := by
  refine AddsForm.fold L f _ fun x hx m E hm => ?_
  have h1 := hi x hx
  have h2 := hj x hx
  refine ⟨{ m with elem := m.elem.modify (fi x + r * fj x) fun y => y + w x },
    E + Matrix.of fun i j => (if fi x = i.1 then 1 else 0) * (if fj x = j.1 then w x else 0), ?_, ?_, fun v u => ?_⟩
  · show f m x = _
    rw [hf m hm.rows hm.cols x hx]
    have := addAt_modify m (fi x + 1) (fj x + 1) (w x) ⟨by omega, by rw [hm.rows]; omega, by omega, by rw [hm.cols]; omega⟩ (by rw [hm.size, hm.rows, hm.cols])
    push_cast at this
    rw [this, hm.rows]
  · refine ⟨hm.rows, hm.cols, by simp [hm.size], fun i j => ?_⟩
    show (m.elem.modify _ _)[_]? = _
    rw [List.getElem?_modify, hm.ent i j, Matrix.add_apply, Matrix.of_apply]
    by_cases e1 : fi x = i.1
    · by_cases e2 : fj x = j.1
      · simp [e1, e2]
      · have : ¬ fi x + r * fj x = i.1 + r * j.1 := by
          rw [e1]; intro h
          exact e2 (Nat.eq_of_mul_eq_mul_left (by omega : 0 < r) (Nat.add_left_cancel h))
        simp [this, e2]
    · have : ¬ fi x + r * fj x = i.1 + r * j.1 := by
        intro h
        have := congrArg (· % r) h
        simp only [Nat.add_mul_mod_self_left, Nat.mod_eq_of_lt h1, Nat.mod_eq_of_lt i.2] at this
        exact e1 this
      simp [this, e1]
  · rw [bil_add, dif_pos ⟨h1, h2⟩]
    congr 1
    unfold bil
    simp only [Matrix.of_apply]
    have : ∀ i : Fin r, (∑ j : Fin s, v i * ((if fi x = i.1 then 1 else 0) * (if fj x = j.1 then w x else 0)) * u j) =
        if fi x = i.1 then v i * w x * u ⟨fj x, h2⟩ else 0 := by
      intro i
      by_cases e : fi x = i.1
      · rw [if_pos e, if_pos e]
        rw [← sum_ite_fin (fj x) h2 fun j => v i * w x * u j]
        exact Finset.sum_congr rfl fun j _ => by
          by_cases e2 : fj x = j.1
          · rw [if_pos e2, if_pos e2]; ring
          · rw [if_neg e2, if_neg e2]; ring
      · rw [if_neg e, if_neg e]
        exact Finset.sum_eq_zero fun j _ => by ring
    rw [Finset.sum_congr rfl fun i _ => this i]
    exact sum_ite_fin (fi x) h1 fun i => v i * w x * u ⟨fj x, h2⟩

theorem nodal_mk (x : Fin (n * c) → R) (i : Fin n) (k : Fin c) (q : Nat) (hq : q < n * c) (e : q = c * i.1 + k.1) : x ⟨q, hq⟩ = nodal x i k := by
  unfold nodal
  congr 1
  apply Fin.ext
  show q = k.1 + c * i.1
  omega

theorem rep_get1 {m : Mat R} {A : Matrix (Fin r) (Fin s) R} (h : Rep m A) (i : Fin r) (j : Fin s) : m.get? ((i.1 : Int) + 1) ((j.1 : Int) + 1) = some (A i j) := by
  unfold Mat.get?
  have := i.2
  have := j.2
  rw [if_pos (by rw [h.rows, h.cols]; omega), show ((i.1 : Int) + 1 - 1).toNat = i.1 by omega, show ((j.1 : Int) + 1 - 1).toNat = j.1 by omega, h.rows]
  exact h.ent i j

theorem addComponent_spec {A : Mat R} {A' : Matrix (Fin n) (Fin p) R} (hA : Rep A A') (k l : Fin c) :
    AddsForm (n * c) (p * c) (fun m => addComponent m A (k+1) (l+1) c) (fun v u => bil A' (fun i => nodal v i k) (fun j => nodal u j l)) := by
  unfold addComponent
  rw [hA.rows, hA.cols]
  refine AddsForm.congr (addEntries (pairs n p) _ (fun q => c * q.1 + k) (fun q => c * q.2 + l)
    (fun q => if h : q.1 < n ∧ q.2 < p then A' ⟨q.1, h.1⟩ ⟨q.2, h.2⟩ else 0) (fun q hq => comp_lt ((mem_pairs _ _ _).1 hq).1 k.2)
    (fun q hq => comp_lt ((mem_pairs _ _ _).1 hq).2 l.2) (fun m _ _ q hq => ?_)) (fun v u => ?_)
  · obtain ⟨h1, h2⟩ := (mem_pairs _ _ _).1 hq
    rw [dif_pos ⟨h1, h2⟩, rep_get1 hA ⟨q.1, h1⟩ ⟨q.2, h2⟩]
    show m.addAt? _ _ _ = _
    congr 1
  · rw [sum_pairs]
    unfold bil
    refine Finset.sum_congr rfl fun i _ => Finset.sum_congr rfl fun j _ => ?_
    rw [dif_pos ⟨comp_lt i.2 k.2, comp_lt j.2 l.2⟩, dif_pos ⟨i.2, j.2⟩, nodal_mk v i k _ _ rfl, nodal_mk u j l _ _ rfl]

theorem addDiagonal_spec {A : Mat R} {A' : Matrix (Fin n) (Fin p) R} (hA : Rep A A') :
    AddsForm (n * c) (p * c) (fun m => addDiagonal m A c) (fun v u => ∑ k : Fin c, bil A' (fun i => nodal v i k) (fun j => nodal u j k)) := by
  unfold addDiagonal
  refine AddsForm.congr (AddsForm.fold (List.range c) _
    (fun k v u => if h : k < c then bil A' (fun i => nodal v i ⟨k, h⟩) (fun j => nodal u j ⟨k, h⟩) else 0) (fun k hk => ?_)) (fun v u => ?_)
  · have hk := List.mem_range.1 hk
    refine AddsForm.congr (addComponent_spec hA ⟨k, hk⟩ ⟨k, hk⟩) (fun v u => ?_)
    rw [dif_pos hk]
  · rw [sum_range_fin c]
    refine Finset.sum_congr rfl fun k _ => ?_
    rw [dif_pos k.2]

/-! ## Forms of vectors -/

theorem lin_add (e f : Fin r → R) (v : Fin r → R) : lin (e + f) v = lin e v + lin f v := by
  unfold lin
  rw [← Finset.sum_add_distrib]
  exact Finset.sum_congr rfl fun j _ => by rw [Pi.add_apply]; ring

/-- Two vectors with the same form are equal. -/
theorem lin_inj (e f : Fin r → R) (h : ∀ v, lin e v = lin f v) : e = f := by
  funext i
  have := h (fun a => if a = i then 1 else 0)
  simpa [lin] using this

/-- A loop that adds values to entries of a vector. -/
theorem addEntriesV {X : Type} (L : List X) (f : List R → X → Option (List R)) (fi : X → Nat) (w : X → R) (hi : ∀ x ∈ L, fi x < r)
    (hf : ∀ e' : Fin r → R, ∀ x ∈ L, f (List.ofFn e') x = some ((List.ofFn e').modify (fi x) fun y => y + w x)) :
    AddsVec r (fun m => L.foldlM f m) (fun v => (L.map fun x => (if h : fi x < r then v ⟨fi x, h⟩ * w x else 0)).sum) := by
  refine AddsVec.fold L f _ fun x hx e => ?_
  have h1 := hi x hx
  refine ⟨e + fun i => if fi x = i.1 then w x else 0, ?_, fun v => ?_⟩
  · show f _ x = _
    rw [hf e x hx]
    congr 1
    apply List.ext_getElem?
    intro q
    rw [List.getElem?_modify, List.getElem?_ofFn, List.getElem?_ofFn]
    by_cases hq : q < r
    · by_cases e2 : fi x = q <;> simp [hq, e2]
    · by_cases e2 : fi x = q <;> simp [hq, e2]
  · rw [lin_add, dif_pos h1]
    congr 1
    unfold lin
    rw [← sum_ite_fin (fi x) h1 fun i => v i * w x]
    exact Finset.sum_congr rfl fun j _ => by
      by_cases e2 : fi x = j.1 <;> simp [e2]

theorem ofFn_getD (e : Fin r → R) (i : Fin r) : (List.ofFn e).getD i.1 0 = e i := by
  rw [List.getD_eq_getElem?_getD, List.getElem?_ofFn, dif_pos i.2]; rfl

theorem addStr_spec (hn : 0 < n) (X : Fin n → R) (α : R) (k : Fin c) :
    AddsVec (n * c) (fun E => some (addStr E (List.ofFn X) α k c)) (fun v => α * ∑ i, X i * nodal v i k) := by
  have hpos : 0 < n * c := Nat.mul_pos hn (by have := k.2; omega)
  have key : AddsVec (n * c) (fun E => (List.range n).foldlM (fun (Y : List R) (i : Nat) =>
      some (if k.1 + i * c < Y.length then Y.set (k.1 + i * c) (Y.getD (k.1 + i * c) 0 + α * (List.ofFn X).getD i 0) else Y)) E)
      (fun v => α * ∑ i, X i * nodal v i k) := by
    have hb : ∀ x ∈ List.range n, k.1 + x * c < n * c := by
      intro x hx
      have := comp_lt (c := c) (List.mem_range.1 hx) k.2
      rw [Nat.mul_comm x c]; omega
    refine AddsVec.congr (addEntriesV (List.range n) _ (fun i => k.1 + i * c) (fun i => α * (List.ofFn X).getD i 0) hb (fun e x hx => ?_)) (fun v => ?_)
    · have h1 := hb x hx
      rw [if_pos (by rw [List.length_ofFn]; exact h1)]
      congr 1
      rw [set_modify (List.ofFn e) _ (fun y => y + α * (List.ofFn X).getD x 0)]
      rw [List.getD_eq_getElem?_getD, List.getElem?_ofFn, dif_pos h1]; rfl
    · rw [sum_range_fin, Finset.mul_sum]
      refine Finset.sum_congr rfl fun i _ => ?_
      rw [dif_pos (hb i (List.mem_range.2 i.2)), ofFn_getD, nodal_mk v i k _ _ (by rw [Nat.mul_comm c]; omega)]
      ring
  intro e
  obtain ⟨e', h1, h2⟩ := key e
  refine ⟨e', ?_, h2⟩
  rw [← h1]
  dsimp only
  rw [foldlM_some']
  congr 1
  unfold addStr
  have : (List.ofFn e).isEmpty = false := by
    rw [List.isEmpty_eq_false_iff_exists_mem]
    exact ⟨e ⟨0, hpos⟩, by simp⟩
  rw [this, List.length_ofFn]
  rfl

end IFEM.Weak
