import Verif.Spec.Immersed
import Mathlib.Data.List.Perm.Basic
import Mathlib.Tactic.Ring
import Mathlib.Tactic.FieldSimp
import Mathlib.Tactic.LinearCombination
import Mathlib.Tactic.Linarith
import Mathlib.Tactic.Positivity

/-! # Lemmas for C80: the cells are the quadtree -/
namespace IFEM.Immersed
open IFEM.Immersed.Spec
variable {K : Type} [Field K] [LinearOrder K]

/-- What is done with one cell at level `i`. -/
def step (E : Elm K) (i : Nat) (c : Cell K) : List (Cell K) :=
  if c.depth + 1 ≠ i then [c] else if uniform E i c then [c] else [cell4 i c, cell1 i c, cell2 i c, cell3 i c]

theorem visit_step (E : Elm K) (i : Nat) (pre post : List (Cell K)) (c : Cell K) : (visit E i (pre ++ c :: post) pre.length).Perm (pre ++ step E i c ++ post) ∧
    ∃ c' post', visit E i (pre ++ c :: post) pre.length = pre ++ c' :: post' ∧ (c' :: post').Perm (step E i c ++ post) := by
  have e : (pre ++ c :: post)[pre.length]? = some c := by simp
  unfold visit step
  simp only [e]
  by_cases h1 : c.depth + 1 ≠ i
  · rw [if_pos h1, if_pos h1]
    exact ⟨by simp, c, post, rfl, by simp⟩
  · rw [if_neg h1, if_neg h1]
    by_cases h2 : uniform E i c = true
    · rw [if_pos h2, if_pos h2]
      exact ⟨by simp, c, post, rfl, by simp⟩
    · rw [if_neg h2, if_neg h2]
      have e2 : (pre ++ c :: post).set pre.length (cell4 i c) = pre ++ cell4 i c :: post := by simp
      rw [e2]
      have p : (cell4 i c :: (post ++ [cell1 i c, cell2 i c, cell3 i c])).Perm ([cell4 i c, cell1 i c, cell2 i c, cell3 i c] ++ post) := by
        exact List.Perm.cons _ List.perm_append_comm
      constructor
      · rw [List.append_assoc, List.append_assoc]
        exact List.Perm.append_left pre p
      · exact ⟨cell4 i c, post ++ [cell1 i c, cell2 i c, cell3 i c], by simp, p⟩

theorem level_step (E : Elm K) (i : Nat) (cs : List (Cell K)) : (level E cs i).Perm (cs.flatMap (step E i)) := by
  have key : ∀ (n : Nat) (pre post : List (Cell K)), pre.length = n → ((List.range n).reverse.foldl (visit E i) (pre ++ post)).Perm (pre.flatMap (step E i) ++ post) := by
    intro n
    induction n with
    | zero =>
      intro pre post h
      rw [List.length_eq_zero_iff.1 h]
      simp
    | succ n ih =>
      intro pre post h
      rw [List.range_succ, List.reverse_append, List.reverse_singleton, List.singleton_append, List.foldl_cons]
      obtain ⟨pre', c, rfl⟩ : ∃ pre' c, pre = pre' ++ [c] := by
        rcases List.eq_nil_or_concat pre with h' | ⟨a, b, h'⟩
        · subst h'; simp at h
        · exact ⟨a, b, by simpa using h'⟩
      have hl : pre'.length = n := by simpa using h
      obtain ⟨c', post', e, p⟩ := (visit_step E i pre' post c).2
      rw [List.append_assoc, List.singleton_append, ← hl, e]
      rw [hl]
      refine (ih pre' (c' :: post') hl).trans ?_
      rw [List.flatMap_append, List.append_assoc]
      refine List.Perm.append_left _ (p.trans ?_)
      simp
  have := key cs.length cs [] rfl
  simpa [level] using this

/-- The cells below a cell, as a recursion. -/
def below (E : Elm K) : Nat → Cell K → List (Cell K)
  | 0, c => [c]
  | n+1, c => if uniform E (c.depth+1) c then [c] else [cell4 (c.depth+1) c, cell1 (c.depth+1) c, cell2 (c.depth+1) c, cell3 (c.depth+1) c].flatMap (below E n)

theorem depth_child (i : Nat) (c : Cell K) : (cell1 i c).depth = i ∧ (cell2 i c).depth = i ∧ (cell3 i c).depth = i ∧ (cell4 i c).depth = i := ⟨rfl, rfl, rfl, rfl⟩

theorem below_step (E : Elm K) (n : Nat) (c : Cell K) : (below E n c).flatMap (step E (c.depth+n+1)) = below E (n+1) c := by
  induction n generalizing c with
  | zero => simp [below, step]
  | succ n ih =>
    rw [below, below]
    by_cases h : uniform E (c.depth+1) c = true
    · rw [if_pos h, if_pos h]
      simp [step]
    · rw [if_neg h, if_neg h, List.flatMap_assoc]
      have e : ∀ k ∈ [cell4 (c.depth+1) c, cell1 (c.depth+1) c, cell2 (c.depth+1) c, cell3 (c.depth+1) c], (below E n k).flatMap (step E (c.depth+(n+1)+1)) = below E (n+1) k := by
        intro k hk
        have hd : k.depth = c.depth+1 := by
          simp only [List.mem_cons, List.not_mem_nil, or_false] at hk
          rcases hk with rfl | rfl | rfl | rfl <;> rfl
        rw [← ih k, hd]
        congr 1
        congr 1
        omega
      rw [List.flatMap_def, List.flatMap_def, List.map_congr_left e]

theorem levels_below (E : Elm K) (n : Nat) : ((List.range' 1 n).foldl (level E) [cell0 E]).Perm (below E n (cell0 E)) := by
  induction n with
  | zero => exact List.Perm.refl _
  | succ n ih =>
    rw [List.range'_concat, List.foldl_append, List.foldl_cons, List.foldl_nil, ← below_step]
    refine (level_step E _ _).trans ?_
    have e : (cell0 E).depth + n + 1 = 1 + 1*n := by simp [cell0]; omega
    rw [e]
    exact List.Perm.flatMap_right _ ih

/-! ## Cells and the quadtree -/

variable [IsStrictOrderedRing K]

/-- The vertices of the cell are the images of its corners. -/
def Good (E : Elm K) (c : Cell K) : Prop :=
  c.v0 = image E (c.xi - half K c.depth) (c.eta - half K c.depth) ∧ c.v1 = image E (c.xi + half K c.depth) (c.eta - half K c.depth) ∧
  c.v2 = image E (c.xi + half K c.depth) (c.eta + half K c.depth) ∧ c.v3 = image E (c.xi - half K c.depth) (c.eta + half K c.depth)

theorem scale_half (d : Nat) : (2 : K)/cellScale K d = half K d := by
  unfold cellScale half
  rw [pow_succ]
  field_simp

theorem half_succ (d : Nat) : half K d = 2*half K (d+1) := by
  unfold half
  rw [pow_succ]
  field_simp

theorem half_pos (d : Nat) : 0 < half K d := by unfold half; positivity

theorem good0 (E : Elm K) : Good E (cell0 E) := by
  refine ⟨?_, ?_, ?_, ?_⟩ <;> (funext k; simp only [cell0, image, half, pow_zero]; field_simp; ring)

theorem good_child {E : Elm K} {c : Cell K} (h : Good E c) : ∀ k ∈ [cell4 (c.depth+1) c, cell1 (c.depth+1) c, cell2 (c.depth+1) c, cell3 (c.depth+1) c], Good E k := by
  obtain ⟨h0, h1, h2, h3⟩ := h
  intro k hk
  simp only [List.mem_cons, List.not_mem_nil, or_false] at hk
  rcases hk with rfl | rfl | rfl | rfl <;>
  · refine ⟨?_, ?_, ?_, ?_⟩ <;>
    · funext m
      simp only [cell1, cell2, cell3, cell4, h0, h1, h2, h3, scale_half, half_succ c.depth, Pi.smul_apply, Pi.add_apply, smul_eq_mul, image]
      ring

omit [IsStrictOrderedRing K] in
theorem count3 {a b c : Prop} [Decidable a] [Decidable b] [Decidable c] : (((if a then 1 else 0) + (if b then 1 else 0) + (if c then 1 else 0) : Nat) == 3) = true ↔ a ∧ b ∧ c := by
  by_cases a <;> by_cases b <;> by_cases c <;> simp_all

theorem offset_inset (E : Elm K) (d : Nat) (sx sy : K) : offset (offsets E (d+1)) sx sy = inset E d sx sy := by
  have e : cellScale K (d+1) = 4*2^d := by unfold cellScale; ring
  have h2 : (2 : K)^d ≠ 0 := by positivity
  funext k
  unfold offset inset offsets half lenX lenY
  simp only [e]
  fin_cases k <;> simp <;> field_simp <;> ring_nf <;> simp

theorem uniform_iff {E : Elm K} {c : Cell K} (h : Good E c) : uniform E (c.depth+1) c = true ↔ ¬ Cut E c.depth c.xi c.eta := by
  obtain ⟨h0, h1, h2, h3⟩ := h
  unfold uniform Cut near
  simp only [offset_inset, h0, h1, h2, h3, not_not, neg_neg, one_mul, neg_one_mul, ← sub_eq_add_neg]
  rw [count3]

theorem below_leaves (E : Elm K) (n : Nat) {c : Cell K} (h : Good E c) :
    ((below E n c).map fun c => (c.depth, c.xi, c.eta)).Perm (leaves E n c.depth c.xi c.eta) ∧ ∀ k ∈ below E n c, Good E k := by
  induction n generalizing c with
  | zero => exact ⟨List.Perm.refl _, by simpa [below] using h⟩
  | succ n ih =>
    rw [below, leaves]
    by_cases hu : uniform E (c.depth+1) c = true
    · rw [if_pos hu, if_neg ((uniform_iff h).1 hu)]
      exact ⟨List.Perm.refl _, by simpa using h⟩
    · rw [if_neg hu, if_pos (by by_contra hc; exact hu ((uniform_iff h).2 hc))]
      have hg := good_child h
      constructor
      · have q1 := (ih (hg _ (by simp : cell1 (c.depth+1) c ∈ _))).1
        have q2 := (ih (hg _ (by simp : cell2 (c.depth+1) c ∈ _))).1
        have q3 := (ih (hg _ (by simp : cell3 (c.depth+1) c ∈ _))).1
        have q4 := (ih (hg _ (by simp : cell4 (c.depth+1) c ∈ _))).1
        rw [show (cell1 (c.depth+1) c).depth = c.depth+1 from rfl, show (cell1 (c.depth+1) c).xi = c.xi - half K (c.depth+1) by rw [← scale_half]; rfl, show (cell1 (c.depth+1) c).eta = c.eta - half K (c.depth+1) by rw [← scale_half]; rfl] at q1
        rw [show (cell2 (c.depth+1) c).depth = c.depth+1 from rfl, show (cell2 (c.depth+1) c).xi = c.xi + half K (c.depth+1) by rw [← scale_half]; rfl, show (cell2 (c.depth+1) c).eta = c.eta - half K (c.depth+1) by rw [← scale_half]; rfl] at q2
        rw [show (cell3 (c.depth+1) c).depth = c.depth+1 from rfl, show (cell3 (c.depth+1) c).xi = c.xi + half K (c.depth+1) by rw [← scale_half]; rfl, show (cell3 (c.depth+1) c).eta = c.eta + half K (c.depth+1) by rw [← scale_half]; rfl] at q3
        rw [show (cell4 (c.depth+1) c).depth = c.depth+1 from rfl, show (cell4 (c.depth+1) c).xi = c.xi - half K (c.depth+1) by rw [← scale_half]; rfl, show (cell4 (c.depth+1) c).eta = c.eta + half K (c.depth+1) by rw [← scale_half]; rfl] at q4
        simp only [List.flatMap_cons, List.flatMap_nil, List.append_nil, List.map_append]
        refine List.perm_append_comm.trans ?_
        rw [← List.append_assoc]
        exact List.Perm.append (List.Perm.append (List.Perm.append q1 q2) q3) q4
      · intro k hk
        obtain ⟨c', hc', hk'⟩ := List.mem_flatMap.1 hk
        exact (ih (hg c' hc')).2 k hk'

/-- The points of a good cell are those of the scaled rule that are inside. -/
theorem cellPoints_eq {E : Elm K} {rule : List (K × K)} {c : Cell K} (h : Good E c) :
    cellPoints E rule c = (scaled rule (c.depth, c.xi, c.eta)).filter fun g => E.alpha (image E g.1 g.2.1) > 0 := by
  obtain ⟨h0, h1, h2, h3⟩ := h
  unfold cellPoints scaled
  rw [List.filter_flatMap]
  congr 1
  funext gj
  have one : ∀ gi : K × K, cellPoint E c gj gi =
      if E.alpha (image E (c.xi + half K c.depth*gi.1) (c.eta + half K c.depth*gj.1)) > 0 then [(c.xi + half K c.depth*gi.1, c.eta + half K c.depth*gj.1, half K c.depth^2*(gi.2*gj.2))] else [] := by
    intro gi
    have eX : (1/4*(1-gi.1)*(1-gj.1)) • c.v0 + (1/4*(gi.1+1)*(1-gj.1)) • c.v1 + (1/4*(gi.1+1)*(gj.1+1)) • c.v2 + (1/4*(1-gi.1)*(gj.1+1)) • c.v3 =
        image E (c.xi + half K c.depth*gi.1) (c.eta + half K c.depth*gj.1) := by
      rw [h0, h1, h2, h3]
      funext k
      simp only [Pi.smul_apply, Pi.add_apply, smul_eq_mul, image]
      ring
    have e1 : ∀ x y : K, x + y*2/cellScale K c.depth = x + half K c.depth*y := by intro x y; rw [← scale_half]; ring
    have e2 : ∀ y : K, y*4/(cellScale K c.depth*cellScale K c.depth) = half K c.depth^2*y := by
      intro y; rw [← scale_half]; ring
    unfold cellPoint
    simp only [eX, e1, e2]
  simp only [one]
  induction rule with
  | nil => rfl
  | cons a t ih =>
    rw [List.flatMap_cons, List.map_cons, List.filter_cons]
    simp only [decide_eq_true_eq]
    split
    · rw [ih]; rfl
    · rw [ih]; rfl

end IFEM.Immersed
