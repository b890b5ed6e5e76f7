import Verif.Lemmas.AlgSys
import Mathlib.Algebra.BigOperators.Group.List.Lemmas
/-!
# C89: An equation system with several matrices, vectors and scalars is the sum of the element contributions
-/
namespace IFEM.AlgSys
open IFEM.Spec IFEM.Sam IFEM.Props
attribute [-simp] Fin.getElem_fin

variable {R : Type} [CommRing R] {s0 s : Sam R} {D : FEModel R}

/-- The part of the branch for one matrix that concerns the matrix. -/
theorem newtonStep_spec (hp : Packs s0 D) (hv : D.Valid) (h : s0.initSystemEquations = some (s, true)) (e : ElmData R) (he : DataFits D e)
    (K : Mat R) (hK : K.WF ∧ K.nrow = s.neq ∧ K.ncol = s.neq) (B : List R) (hB : B.length = s.neq) :
    ∃ K' B', newtonStep s K B e = some (K', B') ∧ (K'.WF ∧ K'.nrow = s.neq ∧ K'.ncol = s.neq) ∧ B'.length = s.neq ∧
      (∀ r c N N', BasisField s D r N → BasisField s D c N' → K'.val r c = K.val r c + matPart D e 0 N N') ∧
      (∀ r N g, BasisField s D r N → LiftField D g →
        vval B' r = vval B r - if e.withLHS = true then (e.A[0]?).elim 0 (matWork D e.iel N g) else 0) := by
  unfold newtonStep matPart
  by_cases hl : e.withLHS = true
  · rw [if_pos hl]
    unfold ElmData.newton
    cases hA : e.A with
    | nil =>
      refine ⟨K, B, ?_, hK, hB, fun r c N N' _ _ => by simp, fun r N g _ _ => by simp⟩
      unfold assembleRhsOnly assembleMat emptyMat
      cases e.rhsOnly <;> rfl
    | cons M Ms =>
      have hM : MatFits D (D.nodesOf e.iel) M := he.mats M (by rw [hA]; exact List.mem_cons_self)
      rw [List.headD_cons]
      by_cases hr : e.rhsOnly = true
      · rw [if_pos hr]
        obtain ⟨B', e1, l1, v1⟩ := rhsOnly_spec hp hv h e.iel he.range M hM B hB
        refine ⟨K, B', by rw [e1]; rfl, hK, l1, fun r c N N' _ _ => by simp [hr], fun r N g hN hg => ?_⟩
        rw [v1 r N g hN hg]
        simp [hl]
      · rw [if_neg hr]
        obtain ⟨K', B', e1, w1, l1, v1, v2⟩ := mat_spec hp hv h e.iel he.range M hM K hK B hB
        refine ⟨K', B', e1, w1, l1, fun r c N N' hN hN' => ?_, fun r N g hN hg => ?_⟩
        · rw [v1 r c N N' hN hN']; simp [hl, hr]
        · rw [v2 r N g hN hg]; simp [hl]
  · rw [if_neg hl]
    exact ⟨K, B, rfl, hK, hB, fun r c N N' _ _ => by simp [hl], fun r N g _ _ => by simp [hl]⟩

theorem rhs_spec (hp : Packs s0 D) (hv : D.Valid) (h : s0.initSystemEquations = some (s, true)) (e : ElmData R) (he : DataFits D e)
    (B : List R) (hB : B.length = s.neq) :
    ∃ B', s.assembleVec B e.rhs e.iel = some B' ∧ B'.length = s.neq ∧
      ∀ r N, BasisField s D r N → vval B' r = vval B r + (e.b[0]?).elim 0 (vecWork D e.iel N) := by
  unfold ElmData.rhs
  cases hb : e.b with
  | nil =>
    refine ⟨B, ?_, hB, fun r N _ => by simp⟩
    unfold assembleVec
    simp
  | cons f fs =>
    obtain ⟨B', e1, l1, v1⟩ := vec_spec hp hv h e.iel he.range f (he.vecs f (by rw [hb]; exact List.mem_cons_self)) B hB
    exact ⟨B', e1, l1, v1⟩

/-- One element: every matrix gets the element matrix of the same number, every vector the element vector of the same number and the terms of the
prescribed values from the matrices linked with it. -/
theorem C89_element (hp : Packs s0 D) (hv : D.Valid) (h : s0.initSystemEquations = some (s, true)) (e : ElmData R) (he : DataFits D e)
    (A : List (Mat R × Option Nat)) (b : List (List R)) (hS : SysFits s.neq A b) :
    ∃ A' b', assembleSystems s A b e = some (A', b') ∧ SysFits s.neq A' b' ∧ A'.map Prod.snd = A.map Prod.snd ∧ b'.length = b.length ∧
      (∀ i, i < A.length → ∀ r c N N', BasisField s D r N → BasisField s D c N' → matVal A' i r c = matVal A i r c + matPart D e i N N') ∧
      (∀ j, j < b.length → ∀ r N g, BasisField s D r N → LiftField D g →
        vecVal b' j r = vecVal b j r + vecPart D (links A b) e j N g) := by
  unfold assembleSystems
  split
  · rename_i K a B bs
    obtain ⟨B1, e1, l1, v1⟩ := rhs_spec hp hv h e he B (hS.vecs B List.mem_cons_self)
    obtain ⟨K', B2, e2, w2, l2, k2, v2⟩ := newtonStep_spec hp hv h e he K (hS.mats (K, a) List.mem_cons_self) B1 l1
    obtain ⟨bs', e3, l3, hb3, v3⟩ := assembleVecs_spec hp hv h e.iel he.range (e.b.drop 1) (fun f hf => he.vecs f (List.mem_of_mem_drop hf)) bs
      (fun v hv' => hS.vecs v (List.mem_cons_of_mem _ hv'))
    rw [e1]
    dsimp only
    rw [e2]
    dsimp only
    rw [e3]
    refine ⟨_, _, rfl, ⟨?_, ?_, ?_⟩, rfl, by simp [l3], ?_, ?_⟩
    · intro p hp'
      obtain rfl := List.mem_singleton.1 hp'
      exact w2
    · intro v hv'
      rcases List.mem_cons.1 hv' with rfl | hv'
      · exact l2
      · exact hb3 v hv'
    · intro p hp' j hj
      obtain rfl := List.mem_singleton.1 hp'
      have := hS.assoc (K, a) List.mem_cons_self j hj
      simpa [l3] using this
    · intro i hi r c N N' hN hN'
      obtain rfl : i = 0 := by simpa using hi
      exact k2 r c N N' hN hN'
    · intro j hj r N g hN hg
      have hl : links [(K, a)] (B :: bs) = [some 0] := by simp [links]
      rw [hl]
      unfold vecPart
      cases j with
      | zero =>
        rw [vecVal_cons_zero, vecVal_cons_zero, v2 r N g hN hg, v1 r N hN]
        simp [add_sub_assoc]
      | succ j =>
        rw [vecVal_cons_succ, vecVal_cons_succ, v3 j (by simpa using hj) r N hN]
        simp [Nat.add_comm 1 j]
  · rename_i _ _ hn
    have hl : links A b = A.map Prod.snd := by
      unfold links
      rw [if_neg]
      rintro ⟨h1, h2⟩
      obtain ⟨⟨K, a⟩, rfl⟩ := List.length_eq_one_iff.1 h1
      obtain ⟨B, bs, rfl⟩ := List.exists_cons_of_ne_nil h2
      exact hn K a B bs rfl rfl
    rw [hl]
    obtain ⟨b1, e1, l1, hb1, v1⟩ := assembleVecs_spec hp hv h e.iel he.range e.b he.vecs b hS.vecs
    rw [e1]
    dsimp only
    have hS1 : SysFits s.neq A b1 := ⟨hS.mats, hb1, fun p hp' j hj => by rw [l1]; exact hS.assoc p hp' j hj⟩
    by_cases hw : e.withLHS = true
    · rw [if_pos hw]
      obtain ⟨A', b', e2, hS2, m2, l2, k2, v2⟩ := assembleMats_spec hp hv h e.iel he.range e.rhsOnly A e.A he.mats b1 hS1
      refine ⟨A', b', e2, hS2, m2, by rw [l2, l1], fun i hi r c N N' hN hN' => ?_, fun j hj r N g hN hg => ?_⟩
      · rw [k2 i hi r c N N' hN hN']
        unfold matPart
        simp [hw]
      · rw [v2 j (by rw [l1]; exact hj) r N g hN hg, v1 j hj r N hN]
        unfold vecPart
        simp only [hw, and_true, List.length_map]
        ring
    · rw [if_neg hw]
      refine ⟨A, b1, rfl, hS1, rfl, l1, fun i hi r c N N' hN hN' => ?_, fun j hj r N g hN hg => ?_⟩
      · unfold matPart; simp [hw]
      · rw [v1 j hj r N hN]
        unfold vecPart
        simp [hw]

/-! ## The scalars -/

theorem addTo_length (x y : List R) : (addTo x y).length = x.length := by
  induction x generalizing y with
  | nil => cases y <;> rfl
  | cons a x ih =>
    cases y with
    | nil => rfl
    | cons b y => simp [addTo, ih]

theorem addTo_getD (x y : List R) (k : Nat) (hk : k < x.length) : (addTo x y).getD k 0 = x.getD k 0 + y.getD k 0 := by
  induction x generalizing y k with
  | nil => exact absurd hk (by simp)
  | cons a x ih =>
    cases y with
    | nil => simp [addTo]
    | cons b y =>
      cases k with
      | zero => simp [addTo]
      | succ k => simpa [addTo] using ih y k (by simpa using hk)

/-- The buffers of `n` threads for `m` scalars. -/
def BufferOk (n m : Nat) : Buffer R → Prop
  | .null => m = 0
  | .single => n = 1 ∨ m = 0
  | .threads l => m = 0 ∨ (1 < n ∧ l.length = n ∧ ∀ x ∈ l, x.length = m)

/-- The sum of scalar `k` over all buffers. -/
def total (c : List R) (d : Buffer R) (k : Nat) : R :=
  c.getD k 0 + match d with
    | .threads l => (l.map fun x => x.getD k 0).sum
    | _ => 0

theorem sum_set (l : List (List R)) (t : Nat) (x y : List R) (k : Nat) (h : l[t]? = some x) :
    ((l.set t y).map fun x => x.getD k 0).sum = (l.map fun x => x.getD k 0).sum + (y.getD k 0 - x.getD k 0) := by
  induction l generalizing t with
  | nil => exact absurd h (by simp)
  | cons a l ih =>
    cases t with
    | zero =>
      obtain rfl : a = x := by simpa using h
      simp only [List.set_cons_zero, List.map_cons, List.sum_cons]
      ring
    | succ t =>
      simp only [List.set_cons_succ, List.map_cons, List.sum_cons]
      rw [ih t (by simpa using h)]
      ring

theorem assembleScl_spec (n : Nat) (c : List R) (d : Buffer R) (t : Nat) (ht : t < n) (ec : List R) (hd : BufferOk n c.length d) :
    ∃ c' d', assembleScl c d t ec = some (c', d') ∧ c'.length = c.length ∧ BufferOk n c.length d' ∧
      ∀ k, k < c.length → total c' d' k = total c d k + ec.getD k 0 := by
  unfold assembleScl
  by_cases h0 : c = [] ∨ ec = []
  · rw [if_pos h0]
    refine ⟨c, d, rfl, rfl, hd, fun k hk => ?_⟩
    rcases h0 with rfl | rfl
    · exact absurd hk (by simp)
    · simp
  · rw [if_neg h0]
    have hm : c.length ≠ 0 := fun e => h0 (Or.inl (List.length_eq_zero_iff.1 e))
    cases d with
    | null => exact absurd hd hm
    | single =>
      have hn : n = 1 := by rcases hd with hd | hd; exacts [hd, absurd hd hm]
      dsimp only
      rw [if_pos (by omega)]
      refine ⟨_, _, rfl, addTo_length _ _, hd, fun k hk => ?_⟩
      unfold total
      rw [addTo_getD _ _ _ hk]
      simp
    | threads l =>
      obtain ⟨h1, h2, h3⟩ : 1 < n ∧ l.length = n ∧ ∀ x ∈ l, x.length = c.length := by rcases hd with hd | hd; exacts [absurd hd hm, hd]
      have hg : l[t]? = some l[t] := List.getElem?_eq_getElem (by omega)
      dsimp only
      rw [hg]
      refine ⟨_, _, rfl, rfl, Or.inr ⟨h1, by simp [h2], ?_⟩, fun k hk => ?_⟩
      · intro x hx
        rcases List.mem_or_eq_of_mem_set hx with hx | rfl
        · exact h3 x hx
        · rw [addTo_length]; exact h3 _ (List.getElem_mem _)
      · unfold total
        dsimp only
        rw [sum_set l t l[t] _ k hg, addTo_getD _ _ _ (by rw [h3 _ (List.getElem_mem _)]; exact hk)]
        ring

theorem foldl_addTo (l : List (List R)) (c : List R) :
    (l.foldl addTo c).length = c.length ∧ ∀ k, k < c.length → (l.foldl addTo c).getD k 0 = c.getD k 0 + (l.map fun x => x.getD k 0).sum := by
  induction l generalizing c with
  | nil => exact ⟨rfl, fun k _ => by simp⟩
  | cons x l ih =>
    obtain ⟨h1, h2⟩ := ih (addTo c x)
    rw [addTo_length] at h1 h2
    refine ⟨h1, fun k hk => ?_⟩
    rw [List.foldl_cons, h2 k hk, addTo_getD _ _ _ hk, List.map_cons, List.sum_cons]
    ring

/-- The scalar `k` of an element; an element without matrices and vectors is not looked at (finding F178). -/
def sclPart (e : ElmData R) (k : Nat) : R := if e.A = [] ∧ e.b = [] then 0 else e.c.getD k 0

/-! ## The element loop -/

theorem assemble_spec (hp : Packs s0 D) (hv : D.Valid) (h : s0.initSystemEquations = some (s, true)) (n : Nat) (S : Sys R)
    (hS : SysFits s.neq S.A S.b) (hR : S.R = []) (hd : BufferOk n S.c.length S.d) (e : ElmData R) (he : DataFits D e) (ht : e.thread < n) :
    ∃ S', assemble s S e = some S' ∧ SysFits s.neq S'.A S'.b ∧ S'.R = [] ∧ BufferOk n S'.c.length S'.d ∧
      S'.A.map Prod.snd = S.A.map Prod.snd ∧ S'.b.length = S.b.length ∧ S'.c.length = S.c.length ∧
      (∀ i, i < S.A.length → ∀ r c N N', BasisField s D r N → BasisField s D c N' → matVal S'.A i r c = matVal S.A i r c + matPart D e i N N') ∧
      (∀ j, j < S.b.length → ∀ r N g, BasisField s D r N → LiftField D g →
        vecVal S'.b j r = vecVal S.b j r + vecPart D (links S.A S.b) e j N g) ∧
      (∀ k, k < S.c.length → total S'.c S'.d k = total S.c S.d k + sclPart e k) := by
  unfold assemble
  by_cases h0 : e.A = [] ∧ e.b = []
  · rw [if_pos h0]
    refine ⟨S, rfl, hS, hR, hd, rfl, rfl, rfl, fun i _ r c N N' _ _ => ?_, fun j _ r N g _ _ => ?_, fun k _ => ?_⟩
    · unfold matPart; rw [h0.1]; simp
    · unfold vecPart; rw [h0.1, h0.2]; simp
    · unfold sclPart; rw [if_pos h0, add_zero]
  · rw [if_neg h0]
    obtain ⟨A', b', e1, hS', m1, l1, k1, v1⟩ := C89_element hp hv h e he S.A S.b hS
    obtain ⟨c', d', e2, l2, hd', t2⟩ := assembleScl_spec n S.c S.d e.thread ht e.c hd
    have er : (if S.A.length = 1 ∧ S.b ≠ [] then reactStep s e.iel S.R e else some S.R) = some [] := by
      rw [hR]
      split
      · unfold reactStep; rw [if_pos rfl]
      · rfl
    rw [er, e1, e2]
    refine ⟨_, rfl, hS', rfl, ?_, m1, l1, l2, k1, v1, fun k hk => ?_⟩
    · dsimp only; rw [l2]; exact hd'
    · unfold sclPart
      rw [if_neg h0]
      exact t2 k hk

theorem links_congr {A A' : List (Mat R × Option Nat)} {b b' : List (List R)} (h1 : A'.map Prod.snd = A.map Prod.snd) (h2 : b'.length = b.length) :
    links A' b' = links A b := by
  have ha : A'.length = A.length := by simpa using congrArg List.length h1
  have hb : b' ≠ [] ↔ b ≠ [] := by
    rw [← List.length_pos_iff, ← List.length_pos_iff, h2]
  unfold links
  rw [ha, h1]
  by_cases c : A.length = 1 ∧ b ≠ []
  · rw [if_pos c, if_pos ⟨c.1, hb.2 c.2⟩]
  · rw [if_neg c, if_neg fun c' => c ⟨c'.1, hb.1 c'.2⟩]

theorem assembleAll_spec' (hp : Packs s0 D) (hv : D.Valid) (h : s0.initSystemEquations = some (s, true)) (n : Nat) (es : List (ElmData R))
    (he : ∀ e ∈ es, DataFits D e ∧ e.thread < n) (S : Sys R) (hS : SysFits s.neq S.A S.b) (hR : S.R = []) (hd : BufferOk n S.c.length S.d) :
    ∃ S', assembleAll s S es = some S' ∧ SysFits s.neq S'.A S'.b ∧ S'.R = [] ∧ BufferOk n S'.c.length S'.d ∧
      S'.A.map Prod.snd = S.A.map Prod.snd ∧ S'.b.length = S.b.length ∧ S'.c.length = S.c.length ∧
      (∀ i, i < S.A.length → ∀ r c N N', BasisField s D r N → BasisField s D c N' →
        matVal S'.A i r c = matVal S.A i r c + (es.map fun e => matPart D e i N N').sum) ∧
      (∀ j, j < S.b.length → ∀ r N g, BasisField s D r N → LiftField D g →
        vecVal S'.b j r = vecVal S.b j r + (es.map fun e => vecPart D (links S.A S.b) e j N g).sum) ∧
      (∀ k, k < S.c.length → total S'.c S'.d k = total S.c S.d k + (es.map fun e => sclPart e k).sum) := by
  induction es generalizing S with
  | nil =>
    exact ⟨S, rfl, hS, hR, hd, rfl, rfl, rfl, fun i _ r c N N' _ _ => by simp, fun j _ r N g _ _ => by simp, fun k _ => by simp⟩
  | cons e es ih =>
    obtain ⟨S1, e1, hS1, hR1, hd1, m1, l1, c1, k1, v1, t1⟩ :=
      assemble_spec hp hv h n S hS hR hd e (he e List.mem_cons_self).1 (he e List.mem_cons_self).2
    obtain ⟨S2, e2, hS2, hR2, hd2, m2, l2, c2, k2, v2, t2⟩ := ih (fun x hx => he x (List.mem_cons_of_mem _ hx)) S1 hS1 hR1 hd1
    have hA : S1.A.length = S.A.length := by simpa using congrArg List.length m1
    rw [links_congr m1 l1] at v2
    refine ⟨S2, ?_, hS2, hR2, hd2, m2.trans m1, l2.trans l1, c2.trans c1, fun i hi r c N N' hN hN' => ?_, fun j hj r N g hN hg => ?_, fun k hk => ?_⟩
    · unfold assembleAll at *
      rw [List.foldlM_cons, e1]
      exact e2
    · rw [k2 i (by rw [hA]; exact hi) r c N N' hN hN', k1 i hi r c N N' hN hN', List.map_cons, List.sum_cons, add_assoc]
    · rw [v2 j (by rw [l1]; exact hj) r N g hN hg, v1 j hj r N g hN hg, List.map_cons, List.sum_cons, add_assoc]
    · rw [t2 k (by rw [c1]; exact hk), t1 k hk, List.map_cons, List.sum_cons, add_assoc]

/-- The steps of one assembly: initialization, the elements, and the end. -/
def round (s : Sam R) (S : Sys R) (initLHS : Bool) (n : Nat) (es : List (ElmData R)) : Option (Sys R) :=
  (assembleAll s (initSystem S initLHS n) es).bind fun S' => finalize S' n

theorem zero_val' (r c : Nat) (i j : Int) : (Mat.zero r c : Mat R).val i j = 0 := by
  unfold Mat.val
  cases hg : (Mat.zero r c : Mat R).get? i j with
  | none => rfl
  | some v =>
    unfold Mat.get? at hg
    split at hg
    · have := List.mem_of_getElem? hg
      exact (List.mem_replicate.1 this).2
    · exact absurd hg (by simp)

theorem vval_zero' (v : List R) (r : Int) : vval (v.map fun _ => (0 : R)) r = 0 := by
  unfold vval
  cases hg : at1? (v.map fun _ => (0 : R)) r with
  | none => rfl
  | some x =>
    unfold at1? at0? at hg
    split at hg
    · have := List.mem_of_getElem? hg
      obtain ⟨y, _, hy⟩ := List.mem_map.1 this
      exact hy.symm
    · exact absurd hg (by simp)

/-- One assembly with `n` threads: every entry of every matrix is the sum of the element contributions (added to what was there, if the matrices
are not initialized), every entry of every vector is the sum of the element forces and of the terms of the prescribed values, and every scalar
is the sum of the scalars of the elements, no matter which thread assembles which element. -/
theorem C89_round (hp : Packs s0 D) (hv : D.Valid) (h : s0.initSystemEquations = some (s, true)) (S : Sys R)
    (hS : SysFits s.neq S.A S.b) (hR : S.R = []) (initLHS : Bool) (n : Nat) (hn : 1 ≤ n) (hd0 : S.c = [] → S.d = .null ∨ S.d = .single)
    (es : List (ElmData R)) (he : ∀ e ∈ es, DataFits D e ∧ e.thread < n) :
    ∃ S', round s S initLHS n es = some S' ∧ SysFits s.neq S'.A S'.b ∧ S'.A.map Prod.snd = S.A.map Prod.snd ∧
      S'.b.length = S.b.length ∧ S'.c.length = S.c.length ∧
      (∀ i, i < S.A.length → ∀ r c N N', BasisField s D r N → BasisField s D c N' →
        matVal S'.A i r c = (if initLHS then 0 else matVal S.A i r c) + (es.map fun e => matPart D e i N N').sum) ∧
      (∀ j, j < S.b.length → ∀ r N g, BasisField s D r N → LiftField D g →
        vecVal S'.b j r = (es.map fun e => vecPart D (links S.A S.b) e j N g).sum) ∧
      (∀ k, k < S.c.length → S'.c.getD k 0 = (es.map fun e => sclPart e k).sum) := by
  have hb : (initSystem S initLHS n).b = S.b.map fun v => v.map fun _ => 0 := rfl
  have hc : (initSystem S initLHS n).c = S.c.map fun _ => 0 := rfl
  have hRi : (initSystem S initLHS n).R = [] := by unfold initSystem; rw [hR]; rfl
  have hA : (initSystem S initLHS n).A = if initLHS then S.A.map fun p => (Mat.zero p.1.nrow p.1.ncol, p.2) else S.A := rfl
  have hm : (initSystem S initLHS n).A.map Prod.snd = S.A.map Prod.snd := by
    rw [hA]; cases initLHS <;> simp
  have hl : (initSystem S initLHS n).b.length = S.b.length := by rw [hb, List.length_map]
  have hlA : (initSystem S initLHS n).A.length = S.A.length := by simpa using congrArg List.length hm
  have hfit : SysFits s.neq (initSystem S initLHS n).A (initSystem S initLHS n).b := by
    refine ⟨fun p hp' => ?_, fun v hv' => ?_, fun p hp' j hj => ?_⟩
    · rw [hA] at hp'
      cases initLHS with
      | false => exact hS.mats p hp'
      | true =>
        obtain ⟨q, hq, rfl⟩ := List.mem_map.1 hp'
        have := hS.mats q hq
        exact ⟨by simp [Mat.WF, Mat.zero], this.2.1, this.2.2⟩
    · rw [hb] at hv'
      obtain ⟨w, hw, rfl⟩ := List.mem_map.1 hv'
      rw [List.length_map]; exact hS.vecs w hw
    · rw [hl]
      rw [hA] at hp'
      cases initLHS with
      | false => exact hS.assoc p hp' j hj
      | true =>
        obtain ⟨q, hq, rfl⟩ := List.mem_map.1 hp'
        exact hS.assoc q hq j hj
  have hdi : BufferOk n (initSystem S initLHS n).c.length (initSystem S initLHS n).d ∧
      (S.c ≠ [] → (initSystem S initLHS n).d = if n > 1 then .threads (List.replicate n (S.c.map fun _ => 0)) else .single) := by
    rw [hc, List.length_map]
    unfold initSystem
    dsimp only
    by_cases h0 : S.c = []
    · refine ⟨?_, fun h => absurd h0 h⟩
      rw [if_pos (by rw [h0]; rfl)]
      rcases hd0 h0 with e | e
      · rw [e, h0]; rfl
      · rw [e, h0]; exact Or.inr rfl
    · have h1 : ¬ S.c.map (fun _ => (0 : R)) = [] := by simpa using h0
      rw [if_neg h1]
      refine ⟨?_, fun _ => rfl⟩
      by_cases h2 : n > 1
      · rw [if_pos h2]
        refine Or.inr ⟨h2, by simp, fun x hx => ?_⟩
        rw [(List.mem_replicate.1 hx).2, List.length_map]
      · rw [if_neg h2]; exact Or.inl (by omega)
  have hz : ∀ k, (S.c.map fun _ => (0 : R)).getD k 0 = 0 := by
    intro k
    rw [List.getD_eq_getElem?_getD, List.getElem?_map]
    cases S.c[k]? <;> rfl
  obtain ⟨S1, e1, hS1, hR1, hd1, m1, l1, c1, k1, v1, t1⟩ := assembleAll_spec' hp hv h n es he (initSystem S initLHS n) hfit hRi hdi.1
  have hc1 : S1.c.length = S.c.length := by rw [c1, hc, List.length_map]
  have hmat : ∀ i, i < S.A.length → ∀ r c N N', BasisField s D r N → BasisField s D c N' →
      matVal S1.A i r c = (if initLHS then 0 else matVal S.A i r c) + (es.map fun e => matPart D e i N N').sum := by
    intro i hi r c N N' hN hN'
    rw [k1 i (by rw [hlA]; exact hi) r c N N' hN hN', hA]
    cases initLHS with
    | false => rfl
    | true =>
      congr 1
      rw [if_pos rfl, if_pos rfl]
      unfold matVal
      rw [List.getD_eq_getElem?_getD, List.map_map, List.getElem?_map, List.getElem?_eq_getElem hi]
      exact zero_val' _ _ _ _
  have hvec : ∀ j, j < S.b.length → ∀ r N g, BasisField s D r N → LiftField D g →
      vecVal S1.b j r = (es.map fun e => vecPart D (links S.A S.b) e j N g).sum := by
    intro j hj r N g hN hg
    rw [v1 j (by rw [hl]; exact hj) r N g hN hg, links_congr hm hl, hb]
    have : vecVal (S.b.map fun v => v.map fun _ => (0 : R)) j r = 0 := by
      unfold vecVal
      rw [List.getD_eq_getElem?_getD, List.getElem?_map, List.getElem?_eq_getElem hj]
      exact vval_zero' _ _
    rw [this, zero_add]
  have htot : ∀ k, k < S.c.length → total S1.c S1.d k = (es.map fun e => sclPart e k).sum := by
    intro k hk
    rw [t1 k (by rw [hc, List.length_map]; exact hk), hc, hdi.2 (fun e => by rw [e] at hk; exact absurd hk (by simp))]
    have : total (S.c.map fun _ => (0 : R)) (if n > 1 then .threads (List.replicate n (S.c.map fun _ => 0)) else .single) k = 0 := by
      unfold total
      rw [hz k, zero_add]
      split
      · rename_i l hl'
        split at hl'
        · injection hl' with hl'
          rw [← hl', List.map_replicate, hz k]
          simp
        · exact absurd hl' (by simp)
      · rfl
    rw [this, zero_add]
  unfold round
  rw [e1, Option.bind_some]
  unfold finalize
  by_cases h0 : S1.c = []
  · rw [if_pos h0]
    refine ⟨S1, rfl, hS1, m1.trans hm, l1.trans hl, hc1, hmat, hvec, fun k hk => ?_⟩
    rw [← hc1, h0] at hk
    exact absurd hk (by simp)
  · rw [if_neg h0]
    have hm0 : S1.c.length ≠ 0 := fun e => h0 (List.length_eq_zero_iff.1 e)
    by_cases h2 : n > 1
    · rw [if_pos h2]
      cases hdd : S1.d with
      | null => rw [hdd] at hd1; exact absurd hd1 hm0
      | single =>
        rw [hdd] at hd1
        rcases hd1 with hd1 | hd1
        · omega
        · exact absurd hd1 hm0
      | threads l =>
        rw [hdd] at hd1
        obtain ⟨-, h4, h5⟩ : 1 < n ∧ l.length = n ∧ ∀ x ∈ l, x.length = S1.c.length := by
          rcases hd1 with hd1 | hd1; exacts [absurd hd1 hm0, hd1]
        dsimp only
        rw [if_neg (by omega)]
        refine ⟨_, rfl, hS1, m1.trans hm, l1.trans hl, ?_, hmat, hvec, fun k hk => ?_⟩
        · dsimp only; rw [(foldl_addTo _ _).1, hc1]
        · dsimp only
          rw [(foldl_addTo _ _).2 k (by rw [hc1]; exact hk), List.take_of_length_le (by omega), ← htot k hk]
          unfold total
          rw [hdd]
    · rw [if_neg h2]
      refine ⟨S1, rfl, hS1, m1.trans hm, l1.trans hl, hc1, hmat, hvec, fun k hk => ?_⟩
      rw [← htot k hk]
      unfold total
      cases hdd : S1.d with
      | threads l =>
        rw [hdd] at hd1
        rcases hd1 with hd1 | hd1
        · exact absurd hd1 hm0
        · omega
      | _ => simp

end IFEM.AlgSys
