import Verif.Lemmas.ProjectionSys
/-!
# C74: the L2-projection
-/
namespace IFEM.Props
open IFEM IFEM.L2 IFEM.Spec IFEM.Spec.L2 IFEM.Weak IFEM.Lem

variable {R : Type} [Field R]

/-- A loop over index pairs that sets entries. -/
theorem fill_pairs (r c : Nat) (v : Nat × Nat → Option R) (g : Nat → Nat → R) (hv : ∀ i j, i < r → j < c → v (i, j) = some (g i j)) :
    ∃ X : Mat R, (Mat.pairs r c).foldlM (fun (x : Mat R) (q : Nat × Nat) => do
      let y ← v q
      x.setAt? (q.1 + 1) (q.2 + 1) y) (Mat.zero r c) = some X ∧ Rep X (Matrix.of fun (i : Fin r) (j : Fin c) => g i j) := by
  have h0 : Rep (Mat.zero r c : Mat R) (Matrix.of fun (_ : Fin r) (_ : Fin c) => (0 : R)) := ⟨rfl, rfl, by simp [Mat.zero], fun i j => by
    show (List.replicate _ _)[_]? = _
    rw [List.getElem?_replicate, if_pos (rep_idx i.2 j.2)]; rfl⟩
  obtain ⟨X, a1, a2⟩ := rep_fold h0 (Mat.pairs r c) (fun (x : Mat R) (q : Nat × Nat) => do
      let y ← v q
      x.setAt? (q.1 + 1) (q.2 + 1) y) (fun q => q.1 + r * q.2) (fun q _ => g q.1 q.2) (fun m' h1 h2 h3 q hq => by
        obtain ⟨b1, b2⟩ := (mem_pairs r c q).1 hq
        obtain ⟨i, j⟩ := q
        rw [hv i j b1 b2]
        refine (setAt_modify m' (i+1) (j+1) (g i j) ⟨by omega, by omega, by omega, by omega⟩ (by rw [h3, h1, h2])).trans ?_
        rw [h1]; rfl)
  refine ⟨X, a1, Eq.mp (congrArg (Rep X) ?_) a2⟩
  funext i j
  rw [filter_single (Mat.pairs r c) _ (i.1, j.1) (nodup_pairs r c) ((mem_pairs r c _).2 ⟨i.2, j.2⟩)]
  · rfl
  · intro q hq
    obtain ⟨b1, b2⟩ := (mem_pairs r c q).1 hq
    rw [decide_eq_true_iff]
    constructor
    · intro h
      obtain ⟨h1, h2⟩ := Mat.idx_inj b1 i.2 h
      exact Prod.ext h1 h2
    · rintro rfl; rfl

theorem arrange_rep (n nrhs : Nat) (hn : 0 < n) (s : List R) (hs : s.length = n * nrhs) :
    ∃ X, arrange n s = some X ∧ Rep X (Matrix.of fun (j : Fin nrhs) (i : Fin n) => s.getD (j * n + i) 0) := by
  unfold arrange
  dsimp only
  rw [if_pos hn, hs, Nat.mul_div_cancel_left _ hn, if_neg (by simp)]
  refine fill_pairs nrhs n (fun q => s[q.1 * n + q.2]?) (fun j i => s.getD (j * n + i) 0) fun j i hj hi => list_get s _ 0 ?_
  show j * n + i < _
  rw [hs, Nat.mul_comm n]
  have := Nat.mul_le_mul_right n (Nat.succ_le_of_lt hj)
  rw [Nat.succ_mul] at this
  omega

theorem form_single (n : Nat) (M : Sparse R) (i k : Nat) (hi : i < n) (hk : k < n) : form n M (single i) (single k) = (M.get? (i+1) (k+1)).getD 0 := by
  unfold form single
  rw [Finset.sum_eq_single i, Finset.sum_eq_single k]
  · simp
  · intro b _ hb; rw [if_neg hb, mul_zero]
  · intro h; exact absurd (Finset.mem_range.2 hk) h
  · intro b _ hb
    refine Finset.sum_eq_zero fun c _ => ?_
    rw [if_neg hb, zero_mul, zero_mul]
  · intro h; exact absurd (Finset.mem_range.2 hi) h

theorem rhs_single (n : Nat) (B : List R) (j i : Nat) (hi : i < n) : rhs n B j (single i) = B.getD (j * n + i) 0 := by
  unfold rhs single
  rw [Finset.sum_eq_single i]
  · simp
  · intro b _ hb; rw [if_neg hb, zero_mul]
  · intro h; exact absurd (Finset.mem_range.2 hi) h

theorem rhs_zero (n m : Nat) (j : Nat) (v : Nat → R) : rhs n (List.replicate m (0 : R)) j v = 0 := by
  unfold rhs
  refine Finset.sum_eq_zero fun i _ => ?_
  rw [List.getD_eq_getElem?_getD, List.getElem?_replicate]
  split <;> simp

theorem integrated (threads : Bool) (n nrhs : Nat) (MMNPC : List (List Nat)) (nel : Nat) (es : List (El R))
    (hes : Fits n nrhs es) (hc : Covered threads n MMNPC nel es) :
    ∃ M0 M B, preAssemble threads ({ nrow := n, ncol := n, solver := .superlu } : Sparse R) MMNPC nel = some M0 ∧
      integrate2 n nrhs es (M0, List.replicate (n * nrhs) 0) = some (M, B) ∧ Open n (Used n es) M ∧ B.length = n * nrhs ∧
      (∀ v u, form n M v u = inner es v u) ∧ ∀ j < nrhs, ∀ v, rhs n B j v = load es j v := by
  obtain ⟨M0, a1, a2, a3, -⟩ := preAssemble_open threads n MMNPC nel es (fun e he => (hes e he).2.1) hc
  obtain ⟨st, b1, b2, b3⟩ := integrate2_adds n nrhs es hes (M0, List.replicate (n * nrhs) 0) ⟨a2, by simp⟩
  refine ⟨M0, st.1, st.2, a1, b1, b2.1, b2.2, fun v u => ?_, fun j hj v => ?_⟩
  · have := congrArg Prod.fst (b3 (v, u, 0))
    refine this.trans ?_
    show form n M0 v u + inner es v u = _
    rw [form_zero n M0 a3, zero_add]
  · have := congrArg Prod.snd (b3 (v, v, j))
    refine this.trans ?_
    show rhs n (List.replicate _ _) j v + (if j < nrhs then _ else _) = _
    rw [rhs_zero, zero_add, if_pos hj]

/-- The system of the projection: the matrix is the one of the scalar products of the basis functions, with 1 in place of zeros
on the diagonal; the right-hand sides are the scalar products with the function. -/
theorem C74_system [DecidableEq R] (threads : Bool) (n nrhs : Nat) (MMNPC : List (List Nat)) (nel : Nat) (es : List (El R))
    (hes : Fits n nrhs es) (hc : Covered threads n MMNPC nel es) :
    ∃ M B, system2 threads n nrhs MMNPC nel es = some (M, B) ∧ B.length = n * nrhs ∧
      (∀ i k, i < n → k < n → M.get? (i+1) (k+1) = some (if i = k ∧ inner es (single i) (single i) = 0 then 1 else inner es (single i) (single k))) ∧
      (∀ i j, i < n → j < nrhs → B.getD (j * n + i) 0 = load es j (single i)) := by
  obtain ⟨M0, M, B, a1, a2, a3, a4, a5, a6⟩ := integrated threads n nrhs MMNPC nel es hes hc
  obtain ⟨M', b1, -, b3⟩ := fixDiag_loop n (Used n es) (fun i hi => Or.inl ⟨rfl, hi⟩) M a3
  refine ⟨M', B, ?_, a4, fun i k hi hk => ?_, fun i j hi hj => ?_⟩
  · unfold system2
    rw [a1]
    simp only [Option.bind_eq_bind, Option.bind_some]
    rw [a2]
    simp only [Option.bind_some]
    rw [b1]; rfl
  · rw [b3 i k hi]
    obtain ⟨x, hx⟩ := open_get a3 (i+1) (k+1)
    have hv : x = inner es (single i) (single k) := by
      rw [← a5, form_single n M i k hi hk, hx]; rfl
    rw [hx, Option.map_some, hv]
    refine congrArg some ?_
    by_cases e : i = k
    · subst e; rfl
    · rw [if_neg fun h => e h.1, if_neg fun h => e h.1]
  · rw [← a6 j hj, rhs_single n B j i hi]

/-- What a solution of the equations means. -/
theorem rhs_expand (n : Nat) (M : Sparse R) (v x : Nat → R) :
    form n M v x = ∑ i ∈ Finset.range n, v i * ∑ k ∈ Finset.range n, (M.get? (i+1) (k+1)).getD 0 * x k := by
  unfold form
  refine Finset.sum_congr rfl fun i _ => ?_
  rw [Finset.mul_sum]
  exact Finset.sum_congr rfl fun k _ => by ring

variable [LinearOrder R] [IsStrictOrderedRing R]

theorem total_nonneg (es : List (El R)) (g : List Nat → Pt R → R) (h : ∀ e ∈ es, ∀ p ∈ e.pts, 0 ≤ g e.mnpc p) : 0 ≤ total es g := by
  unfold total
  refine List.sum_nonneg fun x hx => ?_
  obtain ⟨e, he, rfl⟩ := List.mem_map.1 hx
  refine List.sum_nonneg fun y hy => ?_
  obtain ⟨p, hp, rfl⟩ := List.mem_map.1 hy
  exact h e he p hp

theorem list_sum_zero (L : List R) (h : ∀ x ∈ L, 0 ≤ x) (hs : L.sum = 0) : ∀ x ∈ L, x = 0 := by
  induction L with
  | nil => intro x hx; cases hx
  | cons a L ih =>
    rw [List.sum_cons] at hs
    have h1 := h a List.mem_cons_self
    have h2 := List.sum_nonneg fun x hx => h x (List.mem_cons_of_mem a hx)
    intro x hx
    rcases List.mem_cons.1 hx with rfl | hx
    · linarith
    · exact ih (fun x hx => h x (List.mem_cons_of_mem _ hx)) (by linarith) x hx

theorem total_zero (es : List (El R)) (g : List Nat → Pt R → R) (h : ∀ e ∈ es, ∀ p ∈ e.pts, 0 ≤ g e.mnpc p) (h0 : total es g = 0) :
    ∀ e ∈ es, ∀ p ∈ e.pts, g e.mnpc p = 0 := by
  intro e he p hp
  unfold total at h0
  have h1 : (e.pts.map fun p => g e.mnpc p).sum = 0 := list_sum_zero _ (fun x hx => by
    obtain ⟨e, he, rfl⟩ := List.mem_map.1 hx
    refine List.sum_nonneg fun y hy => ?_
    obtain ⟨p, hp, rfl⟩ := List.mem_map.1 hy
    exact h e he p hp) h0 _ (List.mem_map.2 ⟨e, he, rfl⟩)
  exact list_sum_zero _ (fun y hy => by
    obtain ⟨p, hp, rfl⟩ := List.mem_map.1 hy
    exact h e he p hp) h1 _ (List.mem_map.2 ⟨p, hp, rfl⟩)

theorem total_eq_zero (es : List (El R)) (g : List Nat → Pt R → R) (h : ∀ e ∈ es, ∀ p ∈ e.pts, g e.mnpc p = 0) : total es g = 0 := by
  unfold total
  refine List.sum_eq_zero fun x hx => ?_
  obtain ⟨e, he, rfl⟩ := List.mem_map.1 hx
  refine List.sum_eq_zero fun y hy => ?_
  obtain ⟨p, hp, rfl⟩ := List.mem_map.1 hy
  exact h e he p hp

/-- A field with norm zero is orthogonal to everything. -/
theorem null_field (es : List (El R)) (hw : ∀ e ∈ es, ∀ p ∈ e.pts, 0 ≤ p.w) (v : Nat → R) (h : inner es v v = 0) :
    (∀ u, inner es v u = 0) ∧ ∀ j, load es j v = 0 := by
  have h1 : ∀ e ∈ es, ∀ p ∈ e.pts, p.w * val e.mnpc p v = 0 := by
    intro e he p hp
    have := total_zero es (fun m p => p.w * val m p v * val m p v) (fun e he p hp => by
      rw [mul_assoc]; exact mul_nonneg (hw e he p hp) (mul_self_nonneg _)) h e he p hp
    rcases mul_eq_zero.1 this with h | h
    · exact h
    · rw [h, mul_zero]
  exact ⟨fun u => total_eq_zero es _ fun e he p hp => by rw [h1 e he p hp, zero_mul], fun j => total_eq_zero es _ fun e he p hp => by rw [h1 e he p hp, zero_mul]⟩

/-- The solution of the completed system solves the original one and vanishes where the diagonal was zero. -/
theorem completed_solution (n : Nat) (es : List (El R)) (hw : ∀ e ∈ es, ∀ p ∈ e.pts, 0 ≤ p.w) (j : Nat) (x : Nat → R) (κ : R) (hκ : κ ≠ 0)
    (h : ∀ i < n, ∑ k ∈ Finset.range n, (if i = k ∧ inner es (single i) (single i) = 0 then κ else inner es (single i) (single k)) * x k = load es j (single i)) :
    (∀ i < n, inner es (single i) (single i) = 0 → x i = 0) ∧ ∀ i < n, ∑ k ∈ Finset.range n, inner es (single i) (single k) * x k = load es j (single i) := by
  have h1 : ∀ i < n, inner es (single i) (single i) = 0 → x i = 0 := by
    intro i hi h0
    obtain ⟨n1, n2⟩ := null_field es hw (single i) h0
    have := h i hi
    rw [n2 j, Finset.sum_eq_single i] at this
    · rw [if_pos ⟨rfl, h0⟩] at this
      exact (mul_eq_zero.1 this).resolve_left hκ
    · intro k _ hk
      rw [if_neg fun h => hk h.1.symm, n1, zero_mul]
    · intro h; exact absurd (Finset.mem_range.2 hi) h
  refine ⟨h1, fun i hi => ?_⟩
  rw [← h i hi]
  refine Finset.sum_congr rfl fun k _ => ?_
  by_cases e : i = k ∧ inner es (single i) (single i) = 0
  · rw [if_pos e]
    obtain ⟨rfl, e⟩ := e
    rw [h1 i hi e, mul_zero, mul_zero]
  · rw [if_neg e]

/-- A field depends on its values at the nodes below `n` only. -/
theorem val_congr (n : Nat) (m : List Nat) (hm : ∀ i ∈ m, i < n) (p : Pt R) (u v : Nat → R) (h : ∀ i < n, u i = v i) : val m p u = val m p v := by
  unfold val
  refine Finset.sum_congr rfl fun a ha => ?_
  rw [h _ (hm _ (mem_getD m a 0 (Finset.mem_range.1 ha)))]

theorem total_congr (es : List (El R)) (g g' : List Nat → Pt R → R) (h : ∀ e ∈ es, ∀ p ∈ e.pts, g e.mnpc p = g' e.mnpc p) : total es g = total es g' := by
  unfold total
  refine congrArg List.sum (List.map_congr_left fun e he => ?_)
  exact congrArg List.sum (List.map_congr_left fun p hp => h e he p hp)

theorem total_add (es : List (El R)) (g g' : List Nat → Pt R → R) : total es (fun m p => g m p + g' m p) = total es g + total es g' := by
  unfold total
  induction es with
  | nil => simp
  | cons e es ih =>
    simp only [List.map_cons, List.sum_cons]
    rw [ih, List.sum_map_add]
    ring

theorem total_mul (es : List (El R)) (a : R) (g : List Nat → Pt R → R) : total es (fun m p => a * g m p) = a * total es g := by
  unfold total
  rw [list_sum_mul_left]
  refine congrArg List.sum (List.map_congr_left fun e _ => ?_)
  rw [list_sum_mul_left]

theorem val_sub (m : List Nat) (p : Pt R) (u v : Nat → R) : val m p (fun i => u i - v i) = val m p u - val m p v := by
  unfold val
  rw [← Finset.sum_sub_distrib]
  exact Finset.sum_congr rfl fun _ _ => by ring

/-- Orthogonality of the error makes a field the nearest one. -/
theorem nearest (es : List (El R)) (hw : ∀ e ∈ es, ∀ p ∈ e.pts, 0 ≤ p.w) (j : Nat) (x : Nat → R) (h : ∀ v, inner es v x = load es j v) (c : Nat → R) :
    dist2 es j c = dist2 es j x + total es fun m p => p.w * (val m p c - val m p x) ^ 2 := by
  have key : total es (fun m p => 2 * (p.w * val m p (fun i => c i - x i) * val m p x + (-1) * (p.w * val m p (fun i => c i - x i) * comp p j))) = 0 := by
    rw [total_mul, total_add, total_mul]
    have := h fun i => c i - x i
    unfold inner load at this
    rw [this]; ring
  have : dist2 es j c = total es (fun m p => (p.w * (val m p x - comp p j) ^ 2 + p.w * (val m p c - val m p x) ^ 2) +
      2 * (p.w * val m p (fun i => c i - x i) * val m p x + (-1) * (p.w * val m p (fun i => c i - x i) * comp p j))) := by
    unfold dist2
    refine total_congr es _ _ fun e _ p _ => ?_
    rw [val_sub]; ring
  rw [this, total_add, key, total_add, add_zero]; rfl

/-- The solution of the normal equations at the basis functions solves them for all fields. -/
theorem orthogonal (n : Nat) (es : List (El R)) (M : Sparse R) (B : List R) (j : Nat) (x : Nat → R)
    (hM : ∀ v u, form n M v u = inner es v u) (hB : ∀ v, rhs n B j v = load es j v)
    (h : ∀ i < n, ∑ k ∈ Finset.range n, inner es (single i) (single k) * x k = load es j (single i)) (v : Nat → R) : inner es v x = load es j v := by
  rw [← hM, rhs_expand, ← hB]
  unfold rhs
  refine Finset.sum_congr rfl fun i hi => ?_
  have hi := Finset.mem_range.1 hi
  rw [← rhs_single n B j i hi, hB, ← h i hi]
  congr 1
  refine Finset.sum_congr rfl fun k hk => ?_
  rw [← form_single n M i k hi (Finset.mem_range.1 hk), hM]

/-- **C74** If the solver returns nothing but solutions and finds one, the projection gives for every component of the function the field
that is nearest to it: the error is orthogonal to all fields, no other field has a smaller distance, and nodes where
the basis functions vanish at all points get zero. -/
theorem C74_projection (solver : Sparse R → List R → Option (List R)) (threads : Bool) (n nrhs : Nat) (MMNPC : List (List Nat)) (nel : Nat) (es : List (El R))
    (hn : 0 < n) (hsol : Solver n solver) (hes : Fits n nrhs es) (hw : ∀ e ∈ es, ∀ p ∈ e.pts, 0 ≤ p.w) (hc : Covered threads n MMNPC nel es) :
    ∃ M B, system2 threads n nrhs MMNPC nel es = some (M, B) ∧ (solver M B = none → project2 solver threads n nrhs MMNPC nel es = none) ∧
      (solver M B ≠ none → ∃ X, project2 solver threads n nrhs MMNPC nel es = some X ∧ X.nrow = nrhs ∧ X.ncol = n ∧ X.elem.length = nrhs * n ∧
        ∀ j < nrhs, (∀ v, inner es v (nodal X j) = load es j v) ∧ (∀ c, dist2 es j (nodal X j) ≤ dist2 es j c) ∧
          ∀ i < n, inner es (single i) (single i) = 0 → nodal X j i = 0) := by
  obtain ⟨M0, M1, B1, a1, a2, a3, a4, a5, a6⟩ := integrated threads n nrhs MMNPC nel es hes hc
  obtain ⟨M, B, b1, b2, b3, b4⟩ := C74_system threads n nrhs MMNPC nel es hes hc
  refine ⟨M, B, b1, fun h => ?_, fun h => ?_⟩
  · unfold project2
    rw [b1]
    simp only [Option.bind_eq_bind, Option.bind_some]
    rw [h]; rfl
  · obtain ⟨s, hs⟩ := Option.ne_none_iff_exists'.1 h
    obtain ⟨s1, s2⟩ := hsol M B s hs
    obtain ⟨X, c1, c2⟩ := arrange_rep n nrhs hn s (s1.trans b2)
    have hX : ∀ j < nrhs, ∀ i < n, nodal X j i = s.getD (j * n + i) 0 := by
      intro j hj i hi
      unfold nodal
      rw [rep_get1 c2 ⟨j, hj⟩ ⟨i, hi⟩]; rfl
    refine ⟨X, ?_, c2.rows, c2.cols, c2.size, fun j hj => ?_⟩
    · unfold project2
      rw [b1]
      simp only [Option.bind_eq_bind, Option.bind_some]
      rw [hs]; exact c1
    · obtain ⟨d1, d2⟩ := completed_solution n es hw j (nodal X j) 1 one_ne_zero fun i hi => by
        have hlt : j * n + i < B.length := by
          rw [b2, Nat.mul_comm n]
          have := Nat.mul_le_mul_right n (Nat.succ_le_of_lt hj)
          rw [Nat.succ_mul] at this
          omega
        rw [← b4 i j hi hj, ← s2 j i hlt hi]
        refine Finset.sum_congr rfl fun k hk => ?_
        have hk := Finset.mem_range.1 hk
        rw [b3 i k hi hk, hX j hj k hk]; rfl
      have h2 := orthogonal n es M1 B1 j (nodal X j) a5 (a6 j hj) d2
      refine ⟨h2, fun c => ?_, d1⟩
      rw [nearest es hw j (nodal X j) h2 c]
      exact le_add_of_nonneg_right (total_nonneg es _ fun e he p hp => mul_nonneg (hw e he p hp) (sq_nonneg _))

end IFEM.Props
