import Verif.Lemmas.Collapse
import Verif.Props.ClosePatch
/-!
# C86: collapsed edges and faces
-/
namespace IFEM.ClosePatch
open IFEM IFEM.Spec IFEM.Props Spec
variable {K : Type} [Field K] [LinearOrder K]

/-- The index in direction `t` of a node number of the grid. -/
def coordOf (n : Fin 3 → Nat) (start : Nat) (t : Fin 3) (a : Nat) : Nat :=
  if t = 0 then (a - start) % n 0 else if t = 1 then (a - start) / n 0 % n 1 else (a - start) / n 0 / n 1

theorem coordOf_grid {n x : Fin 3 → Nat} {start : Nat} (hx : InGrid n x) (t : Fin 3) : coordOf n start t (gridNode start n x) = x t := by
  have h0 := hx 0; have h1 := hx 1
  have e : gridNode start n x - start = x 0 + n 0 * (x 1 + n 1 * x 2) := by unfold gridNode; omega
  have e1 : (x 0 + n 0 * (x 1 + n 1 * x 2)) / n 0 = x 1 + n 1 * x 2 := by
    rw [Nat.add_mul_div_left _ _ (by omega), Nat.div_eq_of_lt h0, zero_add]
  have e2 : (x 1 + n 1 * x 2) / n 1 = x 2 := by
    rw [Nat.add_mul_div_left _ _ (by omega), Nat.div_eq_of_lt h1, zero_add]
  unfold coordOf
  rw [e, e1, e2]
  fin_cases t
  · simp [Nat.add_mul_mod_self_left, Nat.mod_eq_of_lt h0]
  · simp [Nat.add_mul_mod_self_left, Nat.mod_eq_of_lt h1]
  · simp

/-- Each point of a face gets the smallest number of those it becomes one with; all other nodes keep their numbers. -/
def Merged (ν ν' : Nat → Int) (start : Nat) (n : Fin 3 → Nat) (F : (Fin 3 → Nat) → Prop) (R : (Fin 3 → Nat) → (Fin 3 → Nat) → Prop) : Prop :=
  (∀ x, F x → (∃ y, F y ∧ R x y ∧ ν' (gridNode start n x) = ν (gridNode start n y)) ∧ ∀ y, F y → R x y → ν' (gridNode start n x) ≤ ν (gridNode start n y)) ∧
  ∀ a, (∀ x, F x → a ≠ gridNode start n x) → ν' a = ν a

/-- The outcome of a collapse: success and merged nodes if the nodes that become one are co-located; and if it succeeds, all nodes that become one are co-located with a common one of them. -/
def FaceRes (r : Bool × PatchModel K) (M : PatchModel K) (same : Nat → Nat → Bool) (q L nf start : Nat) (n : Fin 3 → Nat) (F : (Fin 3 → Nat) → Prop) (R : (Fin 3 → Nat) → (Fin 3 → Nat) → Prop) : Prop :=
  ((∀ x y, F x → F y → R x y → same (gridNode start n x) (gridNode start n y) = true) → r.1 = true ∧ HasPatch r.2 q L nf ∧ Merged (nodeNum M q) (nodeNum r.2 q) start n F R) ∧
  (r.1 = true → ∃ μ : (Fin 3 → Nat) → Fin 3 → Nat, ∀ x, F x → F (μ x) ∧ R x (μ x) ∧ (∀ y, F y → R x y → μ x = μ y) ∧ (μ x = x ∨ same (gridNode start n x) (gridNode start n (μ x)) = true))

theorem group_lemma (ν : Nat → Int) (start : Nat) (n : Fin 3 → Nat) (F : (Fin 3 → Nat) → Prop) (G : Nat → Nat) (key : (Fin 3 → Nat) → Nat) (μ : (Fin 3 → Nat) → Fin 3 → Nat) (L : List (Nat × Nat))
    (hG : ∀ x, F x → G (gridNode start n x) = key x)
    (hμ : ∀ x, F x → F (μ x) ∧ key (μ x) = key x) (hμ' : ∀ x y, F x → F y → key x = key y → μ x = μ y)
    (hL : ∀ p, p ∈ L ↔ ∃ x, F x ∧ p = (gridNode start n (μ x), gridNode start n x)) (hasc : L.Pairwise fun p r => p.2 < r.2)
    (hν : ∀ x y, F x → F y → gridNode start n x ≤ gridNode start n y → ν (gridNode start n x) ≤ ν (gridNode start n y)) :
    Merged ν (pairAll ν L) start n F fun x y => key x = key y := by
  classical
  let P : Nat → Nat → Prop := fun g a => ∃ x, F x ∧ key x = g ∧ a = gridNode start n x
  let β : Nat → Int := fun g => if h : ∃ a, P g a then ν (Nat.find h) else 0
  have hβ : ∀ x, F x → ∃ y, F y ∧ key y = key x ∧ β (key x) = ν (gridNode start n y) ∧ ∀ z, F z → key z = key x → gridNode start n y ≤ gridNode start n z := by
    intro x hx
    have h : ∃ a, P (key x) a := ⟨_, x, hx, rfl, rfl⟩
    obtain ⟨y, hy, hk, ha⟩ := Nat.find_spec h
    refine ⟨y, hy, hk, ?_, fun z hz hkz => ?_⟩
    · show (if h : ∃ a, P (key x) a then ν (Nat.find h) else 0) = _
      rw [dif_pos h, ha]
    · rw [← ha]; exact Nat.find_min' h ⟨z, hz, hkz, rfl⟩
  have hlow : ∀ x y, F x → F y → key y = key x → β (key x) ≤ ν (gridNode start n y) := by
    intro x y hx hy hk
    obtain ⟨z, hz, _, e, hmin⟩ := hβ x hx
    rw [e]; exact hν z y hz hy (hmin y hy hk)
  obtain ⟨r1, r2⟩ := pairAll_groups G β L ν
    (fun p hp => by
      obtain ⟨x, hx, rfl⟩ := (hL p).mp hp
      dsimp only
      rw [hG _ (hμ x hx).1, hG x hx, (hμ x hx).2])
    (fun p hp r hr he => by
      obtain ⟨x, hx, rfl⟩ := (hL p).mp hp
      obtain ⟨y, hy, rfl⟩ := (hL r).mp hr
      dsimp only at he ⊢
      rw [hG x hx, hG y hy] at he
      rw [hμ' x y hx hy he])
    (fun p hp => by
      obtain ⟨x, hx, rfl⟩ := (hL p).mp hp
      dsimp only
      rw [hG x hx]
      exact ⟨hlow x _ hx (hμ x hx).1 (hμ x hx).2, hlow x x hx hx rfl⟩)
    (fun L1 p L2 hs hne => by
      obtain ⟨x, hx, rfl⟩ := (hL p).mp (by rw [hs]; simp)
      dsimp only at hne ⊢
      rw [hG x hx] at hne ⊢
      obtain ⟨y, hy, hk, e, hmin⟩ := hβ x hx
      have hyL : (gridNode start n (μ y), gridNode start n y) ∈ L := (hL _).mpr ⟨y, hy, rfl⟩
      have hxy : gridNode start n y = gridNode start n x := by
        apply le_antisymm (hmin x hx rfl)
        rw [hs] at hyL hasc
        rcases List.mem_append.mp hyL with h | h
        · exact absurd (by rw [hG y hy, hk]) (hne _ h)
        · rcases List.mem_cons.mp h with h | h
          · rw [Prod.mk.injEq] at h; rw [h.2]
          · exact le_of_lt ((List.pairwise_cons.mp (List.pairwise_append.mp hasc).2.1).1 _ h)
      rw [e, hxy]
      apply min_eq_right
      rw [← hxy, ← e]
      exact hlow x _ hx (hμ x hx).1 (hμ x hx).2)
  refine ⟨fun x hx => ?_, fun a ha => ?_⟩
  · have := (r1 _ ((hL _).mpr ⟨x, hx, rfl⟩)).2
    dsimp only at this
    rw [this, hG x hx]
    obtain ⟨y, hy, hk, e, _⟩ := hβ x hx
    exact ⟨⟨y, hy, hk.symm, e⟩, fun z hz hkz => hlow x z hx hz hkz.symm⟩
  · apply r2
    intro p hp
    obtain ⟨x, hx, rfl⟩ := (hL p).mp hp
    exact ⟨ha _ (hμ x hx).1, ha x hx⟩

theorem lex_pairwise {α : Type} (R : α → α → Prop) (a b : Nat) (F : Nat → Nat → α) (h : ∀ k j k' j', k < a → j < b → k' < a → j' < b → (k < k' ∨ (k = k' ∧ j < j')) → R (F k j) (F k' j')) :
    ((List.range a).flatMap fun k => (List.range b).map fun j => F k j).Pairwise R := by
  rw [List.pairwise_flatMap]
  refine ⟨fun k hk => ?_, ?_⟩
  · rw [List.pairwise_map]
    refine List.Pairwise.imp_of_mem ?_ List.pairwise_lt_range
    intro j j' hj hj' hlt
    exact h k j k j' (List.mem_range.mp hk) (List.mem_range.mp hj) (List.mem_range.mp hk) (List.mem_range.mp hj') (Or.inr ⟨rfl, hlt⟩)
  · refine List.Pairwise.imp_of_mem ?_ List.pairwise_lt_range
    intro k k' hk hk' hlt x hx y hy
    obtain ⟨j, hj, rfl⟩ := List.mem_map.mp hx
    obtain ⟨j', hj', rfl⟩ := List.mem_map.mp hy
    exact h k j k' j' (List.mem_range.mp hk) (List.mem_range.mp hj) (List.mem_range.mp hk') (List.mem_range.mp hj') (Or.inl hlt)

/-- The loops over a face. -/
theorem face_core (same : Nat → Nat → Bool) (q N inc extra L nf C : Nat) (upd : Bool → Option Int) (a b : Int) (ha : upd false = some a) (hb : upd true = some b) (hN : 1 ≤ N) (hinc : 1 ≤ inc)
    (m : Int) (node : Nat) (M : PatchModel K) (h : HasPatch M q L nf) (start : Nat) (n : Fin 3 → Nat) (hs : 1 ≤ start) (hL : start + n 0 * n 1 * n 2 ≤ L + 1)
    (F : (Fin 3 → Nat) → Prop) (hFG : ∀ x, F x → InGrid n x) (G : Nat → Nat) (key : (Fin 3 → Nat) → Nat) (hG : ∀ x, F x → G (gridNode start n x) = key x) (μ : (Fin 3 → Nat) → Fin 3 → Nat)
    (hμ : ∀ x, F x → F (μ x) ∧ key (μ x) = key x) (hμ' : ∀ x y, F x → F y → key x = key y → μ x = μ y)
    (pt : Nat → Nat → Fin 3 → Nat) (hpt : ∀ x, F x ↔ ∃ o i, o < C ∧ i < N ∧ x = pt o i)
    (hnode : ∀ o i, o < C → i < N → gridNode start n (pt o i) = node + (inc*N + extra)*o + inc*i)
    (hm : ∀ o i : Nat, o < C → i < N → m + (a*((N : Int)-1) + b)*o + a*i = gridNode start n (μ (pt o i)))
    (hν : ∀ x y, F x → F y → gridNode start n x ≤ gridNode start n y → nodeNum M q (gridNode start n x) ≤ nodeNum M q (gridNode start n y)) :
    FaceRes (faceOuter same q N inc extra upd C m node M) M same q L nf start n F fun x y => key x = key y := by
  have hF : ∀ o i, o < C → i < N → F (pt o i) := fun o i ho hi => (hpt _).mpr ⟨o, i, ho, hi, rfl⟩
  have hrange : ∀ x, F x → 1 ≤ gridNode start n x ∧ gridNode start n x ≤ L := by
    intro x hx
    have := gridNode_range (start := start) (hFG x hx)
    omega
  refine ⟨fun hsame => ?_, fun ht => ⟨μ, fun x hx => ⟨(hμ x hx).1, (hμ x hx).2.symm, fun y hy he => hμ' x y hx hy he, ?_⟩⟩⟩
  rotate_left
  · obtain ⟨o, i, ho, hi, rfl⟩ := (hpt x).mp hx
    have := faceOuter_true same q N inc extra upd a b ha hb hN C m node M (fun o i => gridNode start n (μ (pt o i))) hm ht o i ho hi
    rw [← hnode o i ho hi] at this
    exact this.imp (fun h => gridNode_inj (hFG _ (hμ _ hx).1) (hFG _ hx) h) id
  obtain ⟨M', e1, e2, e3⟩ := faceOuter_spec same q N inc extra L nf upd a b ha hb hN C m node M (fun o i => gridNode start n (μ (pt o i))) h hm
    (fun o i ho hi => by
      rw [← hnode o i ho hi]
      exact ⟨hrange _ (hμ _ (hF o i ho hi)).1, hrange _ (hF o i ho hi)⟩)
    (fun o i ho hi _ => by
      rw [← hnode o i ho hi]
      exact hsame _ _ (hF o i ho hi) (hμ _ (hF o i ho hi)).1 (hμ _ (hF o i ho hi)).2.symm)
  rw [e1]
  refine ⟨rfl, e2, ?_⟩
  dsimp only
  rw [e3]
  apply group_lemma (nodeNum M q) start n F G key μ _ hG hμ hμ' _ _ hν
  · intro p
    simp only [List.mem_flatMap, List.mem_map, List.mem_range]
    constructor
    · rintro ⟨o, ho, i, hi, rfl⟩
      exact ⟨pt o i, hF o i ho hi, by rw [← hnode o i ho hi]⟩
    · rintro ⟨x, hx, rfl⟩
      obtain ⟨o, i, ho, hi, rfl⟩ := (hpt x).mp hx
      exact ⟨o, ho, i, hi, by rw [hnode o i ho hi]⟩
  · apply lex_pairwise
    intro k j k' j' hk hj hk' hj' hlt
    dsimp only
    rcases hlt with hlt | ⟨rfl, hlt⟩
    · have h1 : inc*j < inc*N := Nat.mul_lt_mul_of_pos_left hj hinc
      have h2 : (inc*N + extra)*(k+1) ≤ (inc*N + extra)*k' := Nat.mul_le_mul_left _ hlt
      have h3 : (inc*N + extra)*(k+1) = (inc*N + extra)*k + (inc*N + extra) := by ring
      omega
    · have h1 : inc*j < inc*j' := Nat.mul_lt_mul_of_pos_left hlt hinc
      omega

/-- A face of the grid: the points with a given index in direction `d`, the other directions being the one of the inner loop and the one of the outer loop, and the increments of the node number. -/
structure Layout (start : Nat) (n : Fin 3 → Nat) (d dI dO : Fin 3) (sd sI sO : Nat) : Prop where
  all : ∀ e, e = d ∨ e = dI ∨ e = dO
  ne1 : dI ≠ d
  ne2 : dO ≠ d
  ne3 : dO ≠ dI
  node : ∀ x, gridNode start n x = start + sd * x d + sI * x dI + sO * x dO

/-- A point of a face. -/
def facePt (d dI : Fin 3) (v o i : Nat) : Fin 3 → Nat := fun e => if e = d then v else if e = dI then i else o

section
variable {start : Nat} {n : Fin 3 → Nat} {d dI dO : Fin 3} {sd sI sO : Nat} (lay : Layout start n d dI dO sd sI sO)
include lay

theorem facePt_d (v o i : Nat) : facePt d dI v o i d = v := by simp [facePt]

theorem facePt_I (v o i : Nat) : facePt d dI v o i dI = i := by simp [facePt, lay.ne1]

theorem facePt_O (v o i : Nat) : facePt d dI v o i dO = o := by simp [facePt, lay.ne2, lay.ne3]

theorem face_pts (v : Nat) (hv : v < n d) (x : Fin 3 → Nat) : (InGrid n x ∧ x d = v) ↔ ∃ o i, o < n dO ∧ i < n dI ∧ x = facePt d dI v o i := by
  constructor
  · rintro ⟨h1, h2⟩
    refine ⟨x dO, x dI, h1 dO, h1 dI, ?_⟩
    funext e
    rcases lay.all e with he | he | he
    · rw [he, facePt_d lay, h2]
    · rw [he, facePt_I lay]
    · rw [he, facePt_O lay]
  · rintro ⟨o, i, ho, hi, rfl⟩
    refine ⟨fun e => ?_, facePt_d lay v o i⟩
    rcases lay.all e with he | he | he
    · rw [he, facePt_d lay]; exact hv
    · rw [he, facePt_I lay]; exact hi
    · rw [he, facePt_O lay]; exact ho

theorem face_node (v o i : Nat) : gridNode start n (facePt d dI v o i) = start + sd*v + sO*o + sI*i := by
  rw [lay.node, facePt_d lay, facePt_I lay, facePt_O lay]; ring

/-- Collapsing a face in the direction of the outer loop. -/
theorem face_keepI (same : Nat → Nat → Bool) (q extra L nf : Nat) (upd : Bool → Option Int) (b : Int) (ha : upd false = some (sI : Int)) (hb : upd true = some b) (hn : ∀ e, 1 ≤ n e) (hI : 1 ≤ sI)
    (hzero : (sI : Int)*((n dI : Int)-1) + b = 0) (hO : sI * n dI + extra = sO) (v w : Nat) (hv : v < n d) (hw : w < n dO)
    (M : PatchModel K) (h : HasPatch M q L nf) (hs : 1 ≤ start) (hL : start + n 0 * n 1 * n 2 ≤ L + 1)
    (hν : ∀ x y, InGrid n x ∧ x d = v → InGrid n y ∧ y d = v → gridNode start n x ≤ gridNode start n y → nodeNum M q (gridNode start n x) ≤ nodeNum M q (gridNode start n y)) :
    FaceRes (faceOuter same q (n dI) sI extra upd (n dO) ((start + sd*v + sO*w : Nat) : Int) (start + sd*v) M) M same q L nf start n (fun x => InGrid n x ∧ x d = v) fun x y => x dI = y dI := by
  refine face_core same q (n dI) sI extra L nf (n dO) upd sI b ha hb (hn _) hI _ _ M h start n hs hL (fun x => InGrid n x ∧ x d = v) (fun x hx => hx.1) (coordOf n start dI) (fun x => x dI) (fun x hx => coordOf_grid hx.1 dI)
    (fun x => facePt d dI v w (x dI)) ?_ ?_ (facePt d dI v) (face_pts lay v hv) ?_ ?_ hν
  · intro x hx
    exact ⟨(face_pts lay v hv _).mpr ⟨w, x dI, hw, hx.1 dI, rfl⟩, facePt_I lay _ _ _⟩
  · intro x y _ _ he
    rw [he]
  · intro o i ho hi
    rw [face_node lay, hO]
  · intro o i ho hi
    rw [hzero, facePt_I lay, face_node lay]
    push_cast
    ring

/-- Collapsing a face in the direction of the inner loop. -/
theorem face_keepO (same : Nat → Nat → Bool) (q extra L nf : Nat) (upd : Bool → Option Int) (ha : upd false = some 0) (hb : upd true = some (sO : Int)) (hn : ∀ e, 1 ≤ n e) (hI : 1 ≤ sI)
    (hO : sI * n dI + extra = sO) (v w : Nat) (hv : v < n d) (hw : w < n dI)
    (M : PatchModel K) (h : HasPatch M q L nf) (hs : 1 ≤ start) (hL : start + n 0 * n 1 * n 2 ≤ L + 1)
    (hν : ∀ x y, InGrid n x ∧ x d = v → InGrid n y ∧ y d = v → gridNode start n x ≤ gridNode start n y → nodeNum M q (gridNode start n x) ≤ nodeNum M q (gridNode start n y)) :
    FaceRes (faceOuter same q (n dI) sI extra upd (n dO) ((start + sd*v + sI*w : Nat) : Int) (start + sd*v) M) M same q L nf start n (fun x => InGrid n x ∧ x d = v) fun x y => x dO = y dO := by
  refine face_core same q (n dI) sI extra L nf (n dO) upd 0 sO ha hb (hn _) hI _ _ M h start n hs hL (fun x => InGrid n x ∧ x d = v) (fun x hx => hx.1) (coordOf n start dO) (fun x => x dO) (fun x hx => coordOf_grid hx.1 dO)
    (fun x => facePt d dI v (x dO) w) ?_ ?_ (facePt d dI v) (face_pts lay v hv) ?_ ?_ hν
  · intro x hx
    exact ⟨(face_pts lay v hv _).mpr ⟨x dO, w, hx.1 dO, hw, rfl⟩, facePt_O lay _ _ _⟩
  · intro x y _ _ he
    rw [he]
  · intro o i ho hi
    rw [face_node lay, hO]
  · intro o i ho hi
    rw [facePt_O lay, face_node lay]
    push_cast
    ring

/-- Collapsing a face into a vertex. -/
theorem face_vertex (same : Nat → Nat → Bool) (q extra L nf : Nat) (upd : Bool → Option Int) (ha : upd false = some 0) (hb : upd true = some 0) (hn : ∀ e, 1 ≤ n e) (hI : 1 ≤ sI)
    (hO : sI * n dI + extra = sO) (v : Nat) (hv : v < n d)
    (M : PatchModel K) (h : HasPatch M q L nf) (hs : 1 ≤ start) (hL : start + n 0 * n 1 * n 2 ≤ L + 1)
    (hν : ∀ x y, InGrid n x ∧ x d = v → InGrid n y ∧ y d = v → gridNode start n x ≤ gridNode start n y → nodeNum M q (gridNode start n x) ≤ nodeNum M q (gridNode start n y)) :
    FaceRes (faceOuter same q (n dI) sI extra upd (n dO) ((start + sd*v : Nat) : Int) (start + sd*v) M) M same q L nf start n (fun x => InGrid n x ∧ x d = v) fun _ _ => (0 : Nat) = 0 := by
  refine face_core same q (n dI) sI extra L nf (n dO) upd 0 0 ha hb (hn _) hI _ _ M h start n hs hL (fun x => InGrid n x ∧ x d = v) (fun x hx => hx.1) (fun _ => 0) (fun _ => 0) (fun x hx => rfl)
    (fun x => facePt d dI v 0 0) ?_ ?_ (facePt d dI v) (face_pts lay v hv) ?_ ?_ hν
  · intro x hx
    exact ⟨(face_pts lay v hv _).mpr ⟨0, 0, hn _, hn _, rfl⟩, rfl⟩
  · intro x y _ _ he
    rfl
  · intro o i ho hi
    rw [face_node lay, hO]
  · intro o i ho hi
    rw [face_node lay]
    push_cast
    ring

end

theorem lay_U (start : Nat) (n : Fin 3 → Nat) : Layout start n 0 1 2 1 (n 0) (n 0 * n 1) where
  all := by decide
  ne1 := by decide
  ne2 := by decide
  ne3 := by decide
  node := fun x => by unfold gridNode; ring

theorem lay_V (start : Nat) (n : Fin 3 → Nat) : Layout start n 1 0 2 (n 0) 1 (n 0 * n 1) where
  all := by decide
  ne1 := by decide
  ne2 := by decide
  ne3 := by decide
  node := fun x => by unfold gridNode; ring

theorem lay_W (start : Nat) (n : Fin 3 → Nat) : Layout start n 2 0 1 (n 0 * n 1) 1 (n 0) where
  all := by decide
  ne1 := by decide
  ne2 := by decide
  ne3 := by decide
  node := fun x => by unfold gridNode; ring

theorem merged_congr {ν ν' : Nat → Int} {start : Nat} {n : Fin 3 → Nat} {F F' : (Fin 3 → Nat) → Prop} {R R' : (Fin 3 → Nat) → (Fin 3 → Nat) → Prop} (hF : ∀ x, F x ↔ F' x) (hR : ∀ x y, R x y ↔ R' x y)
    (h : Merged ν ν' start n F R) : Merged ν ν' start n F' R' := by
  obtain rfl : F = F' := funext fun x => propext (hF x)
  obtain rfl : R = R' := funext fun x => funext fun y => propext (hR x y)
  exact h

theorem faceRes_congr {r : Bool × PatchModel K} {M : PatchModel K} {same : Nat → Nat → Bool} {q L nf start : Nat} {n : Fin 3 → Nat} {F F' : (Fin 3 → Nat) → Prop} {R R' : (Fin 3 → Nat) → (Fin 3 → Nat) → Prop} (hF : ∀ x, F x ↔ F' x) (hR : ∀ x y, R x y ↔ R' x y)
    (h : FaceRes r M same q L nf start n F R) : FaceRes r M same q L nf start n F' R' := by
  obtain rfl : F = F' := funext fun x => propext (hF x)
  obtain rfl : R = R' := funext fun x => funext fun y => propext (hR x y)
  exact h

/-- C86: collapsing a face of a patch whose nodes are numbered in ascending order, into one of its edges or (edge zero) into a vertex: it succeeds if the nodes to be collapsed are co-located, and then each node of the face gets the smallest
number of the nodes it is collapsed with, while all other nodes keep their numbers.  If the third direction is swapped, the claim excludes edges of the faces 5 and 6 (see `C86_collapse_swapped`). -/
theorem collapse_face_res (same : Nat → Nat → Bool) (M : PatchModel K) (q L nf start : Nat) (n : Fin 3 → Nat) (face edge : Nat) (hface : 1 ≤ face ∧ face ≤ 6) (hedge : edge = 0 ∨ edge ∈ faceEdges face)
    (swapW : Bool) (face' : Nat) (hsw : face' = if swapW = true ∧ face > 4 then 11 - face else face) (hsw' : swapW = true → face > 4 → edge = 0)
    (h : HasPatch M q L nf) (hn : ∀ d, 1 ≤ n d) (hs : 1 ≤ start) (hL : start + n 0 * n 1 * n 2 ≤ L + 1)
    (hν : ∀ x y, InGrid n x → InGrid n y → gridNode start n x < gridNode start n y → nodeNum M q (gridNode start n x) < nodeNum M q (gridNode start n y)) :
    FaceRes (collapseFace same swapW q (n 0) (n 1) (n 2) start face edge M) M same q L nf start n (OnFace n face') (SameAlong edge) := by
  have h0 := hn 0; have h1 := hn 1; have h2 := hn 2
  have hν' : ∀ (d : Fin 3) (v : Nat) (x y : Fin 3 → Nat), InGrid n x ∧ x d = v → InGrid n y ∧ y d = v → gridNode start n x ≤ gridNode start n y → nodeNum M q (gridNode start n x) ≤ nodeNum M q (gridNode start n y) := by
    intro d v x y hx hy hle
    rcases lt_or_eq_of_le hle with hlt | he
    · exact le_of_lt (hν x y hx.1 hy.1 hlt)
    · rw [he]
  -- the loops, by type of face
  have key : ∀ f : Nat, 1 ≤ f → f ≤ 6 → (edge = 0 ∨ edge ∈ faceEdges f) →
      FaceRes (collapseFace same false q (n 0) (n 1) (n 2) start f edge M) M same q L nf start n (OnFace n f) (SameAlong edge) := by
    intro f hf1 hf6 he
    have cU : f = 1 ∨ f = 2 → ∃ v, v < n 0 ∧ v = (if f = 2 then n 0 - 1 else 0) ∧ ∀ x, (InGrid n x ∧ x 0 = v) ↔ OnFace n f x := by
      rintro (rfl | rfl)
      · exact ⟨0, h0, by simp, fun x => by simp [OnFace]⟩
      · refine ⟨n 0 - 1, by omega, by simp, fun x => ?_⟩
        have : x 0 = n 0 - 1 ↔ x 0 + 1 = n 0 := by omega
        simp [OnFace, this]
    have cV : f = 3 ∨ f = 4 → ∃ v, v < n 1 ∧ v = (if f = 4 then n 1 - 1 else 0) ∧ ∀ x, (InGrid n x ∧ x 1 = v) ↔ OnFace n f x := by
      rintro (rfl | rfl)
      · exact ⟨0, h1, by simp, fun x => by simp [OnFace]⟩
      · refine ⟨n 1 - 1, by omega, by simp, fun x => ?_⟩
        have : x 1 = n 1 - 1 ↔ x 1 + 1 = n 1 := by omega
        simp [OnFace, this]
    have cW : f = 5 ∨ f = 6 → ∃ v, v < n 2 ∧ v = (if f = 6 then n 2 - 1 else 0) ∧ ∀ x, (InGrid n x ∧ x 2 = v) ↔ OnFace n f x := by
      rintro (rfl | rfl)
      · exact ⟨0, h2, by simp, fun x => by simp [OnFace]⟩
      · refine ⟨n 2 - 1, by omega, by simp, fun x => ?_⟩
        have : x 2 = n 2 - 1 ↔ x 2 + 1 = n 2 := by omega
        simp [OnFace, this]
    rcases (by omega : (f = 1 ∨ f = 2) ∨ (f = 3 ∨ f = 4) ∨ (f = 5 ∨ f = 6)) with hf | hf | hf
    · obtain ⟨v, hv, hve, hF⟩ := cU hf
      have hnode : (if (f : Int) = 2 then start + (n 0 - 1) else start) = start + 1*v := by
        rcases hf with rfl | rfl <;> simp [hve]
      have hred : ∀ ie : Int, Int.tdiv ((edge : Int) - f - 2) 2 = ie → collapseFace same false q (n 0) (n 1) (n 2) start f edge M =
          faceOuter same q (n 1) (n 0) 0 (updU (n 0) (n 1) ie) (n 2) ((if ie = 2 then start + 1*v + n 0 * n 1 * (n 2 - 1) else if ie = 4 then start + 1*v + n 0 * (n 1 - 1) else start + 1*v : Nat) : Int) (start + 1*v) M := by
        intro ie hie
        rw [collapseFace]
        simp only [Bool.false_eq_true, false_and, if_false]
        rw [if_pos (by omega), hie, hnode]
      have hz : ((n 0 : Nat) : Int) * ((n 1 : Int) - 1) + (((n 0 : Nat) : Int) - ((n 0 * n 1 : Nat) : Int)) = 0 := by push_cast; ring
      have kI : edge = 5 ∨ edge = 6 ∨ edge = 7 ∨ edge = 8 → ∀ (ie : Int) (w : Nat), (ie = 1 ∨ ie = 2) → Int.tdiv ((edge : Int) - f - 2) 2 = ie → w < n 2 → (if ie = 2 then start + 1*v + n 0 * n 1 * (n 2 - 1) else if ie = 4 then start + 1*v + n 0 * (n 1 - 1) else start + 1*v) = start + 1*v + n 0 * n 1 * w →
          FaceRes (collapseFace same false q (n 0) (n 1) (n 2) start f edge M) M same q L nf start n (OnFace n f) (SameAlong edge) := by
        intro hed ie w hie hie' hw hm
        have hR : ∀ x y : Fin 3 → Nat, x 1 = y 1 ↔ SameAlong edge x y := by
          intro x y; rcases hed with rfl | rfl | rfl | rfl <;> simp [SameAlong, edgeDir]
        have e3 := face_keepI (lay_U start n) same q 0 L nf (updU (n 0) (n 1) ie) _ (by rcases hie with rfl | rfl <;> simp [updU]) (by rcases hie with rfl | rfl <;> simp [updU] <;> rfl) hn h0 hz (by simp) v w hv hw M h hs hL (hν' 0 v)
        rw [hred ie hie', hm]
        exact faceRes_congr hF hR e3
      have kO : edge = 9 ∨ edge = 10 ∨ edge = 11 ∨ edge = 12 → ∀ (ie : Int) (w : Nat), (ie = 3 ∨ ie = 4) → Int.tdiv ((edge : Int) - f - 2) 2 = ie → w < n 1 → (if ie = 2 then start + 1*v + n 0 * n 1 * (n 2 - 1) else if ie = 4 then start + 1*v + n 0 * (n 1 - 1) else start + 1*v) = start + 1*v + n 0 * w →
          FaceRes (collapseFace same false q (n 0) (n 1) (n 2) start f edge M) M same q L nf start n (OnFace n f) (SameAlong edge) := by
        intro hed ie w hie hie' hw hm
        have hR : ∀ x y : Fin 3 → Nat, x 2 = y 2 ↔ SameAlong edge x y := by
          intro x y; rcases hed with rfl | rfl | rfl | rfl <;> simp [SameAlong, edgeDir]
        have e3 := face_keepO (lay_U start n) same q 0 L nf (updU (n 0) (n 1) ie) (by rcases hie with rfl | rfl <;> simp [updU]) (by rcases hie with rfl | rfl <;> simp [updU]) hn h0 (by simp) v w hv hw M h hs hL (hν' 0 v)
        rw [hred ie hie', hm]
        exact faceRes_congr hF hR e3
      have k0 : edge = 0 → ∀ ie : Int, (ie = -1 ∨ ie = -2) → Int.tdiv ((edge : Int) - f - 2) 2 = ie →
          FaceRes (collapseFace same false q (n 0) (n 1) (n 2) start f edge M) M same q L nf start n (OnFace n f) (SameAlong edge) := by
        intro hed ie hie hie'
        have hR : ∀ x y : Fin 3 → Nat, (0 : Nat) = 0 ↔ SameAlong edge x y := by
          intro x y; simp [SameAlong, hed]
        have e3 := face_vertex (lay_U start n) same q 0 L nf (updU (n 0) (n 1) ie) (by rcases hie with rfl | rfl <;> simp [updU]) (by rcases hie with rfl | rfl <;> simp [updU]) hn h0 (by simp) v hv M h hs hL (hν' 0 v)
        rw [hred ie hie', if_neg (by omega), if_neg (by omega)]; exact faceRes_congr hF hR e3
      rcases hf with rfl | rfl
      · rcases he with he | he
        · exact k0 he (-1) (by simp) (by subst he; decide)
        · simp [faceEdges] at he
          rcases he with rfl | rfl | rfl | rfl
          · exact kI (by simp) 1 0 (by simp) (by decide) h2 (by simp)
          · exact kI (by simp) 2 (n 2 - 1) (by simp) (by decide) (by omega) (by simp)
          · exact kO (by simp) 3 0 (by simp) (by decide) h1 (by simp)
          · exact kO (by simp) 4 (n 1 - 1) (by simp) (by decide) (by omega) (by simp)
      · rcases he with he | he
        · exact k0 he (-2) (by simp) (by subst he; decide)
        · simp [faceEdges] at he
          rcases he with rfl | rfl | rfl | rfl
          · exact kI (by simp) 1 0 (by simp) (by decide) h2 (by simp)
          · exact kI (by simp) 2 (n 2 - 1) (by simp) (by decide) (by omega) (by simp)
          · exact kO (by simp) 3 0 (by simp) (by decide) h1 (by simp)
          · exact kO (by simp) 4 (n 1 - 1) (by simp) (by decide) (by omega) (by simp)
    · obtain ⟨v, hv, hve, hF⟩ := cV hf
      have hx0 : 1 * n 0 + n 0 * (n 1 - 1) = n 0 * n 1 := by
        obtain ⟨e, he⟩ : ∃ e, n 1 = e + 1 := ⟨n 1 - 1, by omega⟩
        rw [he]; simp; ring
      have hnode : (if (f : Int) = 4 then start + n 0 * (n 1 - 1) else start) = start + n 0 * v := by
        rcases hf with rfl | rfl <;> simp [hve]
      have hred : ∀ ie : Int, (if (edge : Int) < 9 then Int.tdiv ((edge : Int) - f + 4) 2 else (edge : Int) - 2*f) = ie → collapseFace same false q (n 0) (n 1) (n 2) start f edge M =
          faceOuter same q (n 0) 1 (n 0 * (n 1 - 1)) (updV (n 0) (n 1) ie) (n 2) ((if ie = 2 then start + n 0 * v + n 0 * n 1 * (n 2 - 1) else if ie = 4 then start + n 0 * v + (n 0 - 1) else start + n 0 * v : Nat) : Int) (start + n 0 * v) M := by
        intro ie hie
        rw [collapseFace]
        simp only [Bool.false_eq_true, false_and, if_false]
        rw [if_neg (by omega), if_pos (by omega), hie, hnode]
      have hz : ((1 : Nat) : Int) * ((n 0 : Int) - 1) + (1 - (n 0 : Int)) = 0 := by push_cast; ring
      have kI : edge = 1 ∨ edge = 2 ∨ edge = 3 ∨ edge = 4 → ∀ (ie : Int) (w : Nat), (ie = 1 ∨ ie = 2) → (if (edge : Int) < 9 then Int.tdiv ((edge : Int) - f + 4) 2 else (edge : Int) - 2*f) = ie → w < n 2 → (if ie = 2 then start + n 0 * v + n 0 * n 1 * (n 2 - 1) else if ie = 4 then start + n 0 * v + (n 0 - 1) else start + n 0 * v) = start + n 0 * v + n 0 * n 1 * w →
          FaceRes (collapseFace same false q (n 0) (n 1) (n 2) start f edge M) M same q L nf start n (OnFace n f) (SameAlong edge) := by
        intro hed ie w hie hie' hw hm
        have hR : ∀ x y : Fin 3 → Nat, x 0 = y 0 ↔ SameAlong edge x y := by
          intro x y; rcases hed with rfl | rfl | rfl | rfl <;> simp [SameAlong, edgeDir]
        have e3 := face_keepI (lay_V start n) same q (n 0 * (n 1 - 1)) L nf (updV (n 0) (n 1) ie) _ (by rcases hie with rfl | rfl <;> simp [updV]) (by rcases hie with rfl | rfl <;> simp [updV] <;> rfl) hn (le_refl 1) hz hx0 v w hv hw M h hs hL (hν' 1 v)
        rw [hred ie hie', hm]
        exact faceRes_congr hF hR e3
      have kO : edge = 9 ∨ edge = 10 ∨ edge = 11 ∨ edge = 12 → ∀ (ie : Int) (w : Nat), (ie = 3 ∨ ie = 4) → (if (edge : Int) < 9 then Int.tdiv ((edge : Int) - f + 4) 2 else (edge : Int) - 2*f) = ie → w < n 0 → (if ie = 2 then start + n 0 * v + n 0 * n 1 * (n 2 - 1) else if ie = 4 then start + n 0 * v + (n 0 - 1) else start + n 0 * v) = start + n 0 * v + 1 * w →
          FaceRes (collapseFace same false q (n 0) (n 1) (n 2) start f edge M) M same q L nf start n (OnFace n f) (SameAlong edge) := by
        intro hed ie w hie hie' hw hm
        have hR : ∀ x y : Fin 3 → Nat, x 2 = y 2 ↔ SameAlong edge x y := by
          intro x y; rcases hed with rfl | rfl | rfl | rfl <;> simp [SameAlong, edgeDir]
        have e3 := face_keepO (lay_V start n) same q (n 0 * (n 1 - 1)) L nf (updV (n 0) (n 1) ie) (by rcases hie with rfl | rfl <;> simp [updV]) (by rcases hie with rfl | rfl <;> simp [updV]) hn (le_refl 1) hx0 v w hv hw M h hs hL (hν' 1 v)
        rw [hred ie hie', hm]
        exact faceRes_congr hF hR e3
      have k0 : edge = 0 →
          FaceRes (collapseFace same false q (n 0) (n 1) (n 2) start f edge M) M same q L nf start n (OnFace n f) (SameAlong edge) := by
        intro hed
        have hie' : (if (edge : Int) < 9 then Int.tdiv ((edge : Int) - f + 4) 2 else (edge : Int) - 2*f) = 0 := by
          rcases hf with rfl | rfl <;> subst hed <;> decide
        have hR : ∀ x y : Fin 3 → Nat, (0 : Nat) = 0 ↔ SameAlong edge x y := by
          intro x y; simp [SameAlong, hed]
        have e3 := face_vertex (lay_V start n) same q (n 0 * (n 1 - 1)) L nf (updV (n 0) (n 1) 0) (by simp [updV]) (by simp [updV]) hn (le_refl 1) hx0 v hv M h hs hL (hν' 1 v)
        rw [hred 0 hie', if_neg (by omega), if_neg (by omega)]; exact faceRes_congr hF hR e3
      rcases hf with rfl | rfl
      · rcases he with he | he
        · exact k0 he
        · simp [faceEdges] at he
          rcases he with rfl | rfl | rfl | rfl
          · exact kI (by simp) 1 0 (by simp) (by decide) h2 (by simp)
          · exact kI (by simp) 2 (n 2 - 1) (by simp) (by decide) (by omega) (by simp)
          · exact kO (by simp) 3 0 (by simp) (by decide) h0 (by simp)
          · exact kO (by simp) 4 (n 0 - 1) (by simp) (by decide) (by omega) (by simp)
      · rcases he with he | he
        · exact k0 he
        · simp [faceEdges] at he
          rcases he with rfl | rfl | rfl | rfl
          · exact kI (by simp) 1 0 (by simp) (by decide) h2 (by simp)
          · exact kI (by simp) 2 (n 2 - 1) (by simp) (by decide) (by omega) (by simp)
          · exact kO (by simp) 3 0 (by simp) (by decide) h0 (by simp)
          · exact kO (by simp) 4 (n 0 - 1) (by simp) (by decide) (by omega) (by simp)
    · obtain ⟨v, hv, hve, hF⟩ := cW hf
      have hx0 : 1 * n 0 + 0 = n 0 := by simp
      have hnode : (if (f : Int) = 6 then start + n 0 * n 1 * (n 2 - 1) else start) = start + n 0 * n 1 * v := by
        rcases hf with rfl | rfl <;> simp [hve]
      have hred : ∀ ie : Int, (edge : Int) - 2*f + 10 = ie → collapseFace same false q (n 0) (n 1) (n 2) start f edge M =
          faceOuter same q (n 0) 1 0 (updW (n 0) ie) (n 1) ((start + n 0 * n 1 * v : Nat) : Int) (start + n 0 * n 1 * v) M := by
        intro ie hie
        rw [collapseFace]
        simp only [Bool.false_eq_true, false_and, if_false]
        rw [if_neg (by omega), if_neg (by omega), if_pos (by omega), hie, hnode]
      have hz : ((1 : Nat) : Int) * ((n 0 : Int) - 1) + (1 - (n 0 : Int)) = 0 := by push_cast; ring
      have kI : edge = 1 ∨ edge = 2 ∨ edge = 3 ∨ edge = 4 → ∀ ie : Int, (ie = 1 ∨ ie = 2) → (edge : Int) - 2*f + 10 = ie →
          FaceRes (collapseFace same false q (n 0) (n 1) (n 2) start f edge M) M same q L nf start n (OnFace n f) (SameAlong edge) := by
        intro hed ie hie hie'
        have hR : ∀ x y : Fin 3 → Nat, x 0 = y 0 ↔ SameAlong edge x y := by
          intro x y; rcases hed with rfl | rfl | rfl | rfl <;> simp [SameAlong, edgeDir]
        have e3 := face_keepI (lay_W start n) same q 0 L nf (updW (n 0) ie) _ (by rcases hie with rfl | rfl <;> simp [updW]) (by rcases hie with rfl | rfl <;> simp [updW] <;> rfl) hn (le_refl 1) hz hx0 v 0 hv h1 M h hs hL (hν' 2 v)
        rw [hred ie hie']
        exact faceRes_congr hF hR e3
      have kO : edge = 5 ∨ edge = 6 ∨ edge = 7 ∨ edge = 8 → ∀ ie : Int, (ie = 5 ∨ ie = 6) → (edge : Int) - 2*f + 10 = ie →
          FaceRes (collapseFace same false q (n 0) (n 1) (n 2) start f edge M) M same q L nf start n (OnFace n f) (SameAlong edge) := by
        intro hed ie hie hie'
        have hR : ∀ x y : Fin 3 → Nat, x 1 = y 1 ↔ SameAlong edge x y := by
          intro x y; rcases hed with rfl | rfl | rfl | rfl <;> simp [SameAlong, edgeDir]
        have e3 := face_keepO (lay_W start n) same q 0 L nf (updW (n 0) ie) (by rcases hie with rfl | rfl <;> simp [updW]) (by rcases hie with rfl | rfl <;> simp [updW]) hn (le_refl 1) hx0 v 0 hv h0 M h hs hL (hν' 2 v)
        rw [hred ie hie']
        exact faceRes_congr hF hR e3
      have k0 : edge = 0 → ∀ ie : Int, (ie = 0 ∨ ie = -2) → (edge : Int) - 2*f + 10 = ie →
          FaceRes (collapseFace same false q (n 0) (n 1) (n 2) start f edge M) M same q L nf start n (OnFace n f) (SameAlong edge) := by
        intro hed ie hie hie'
        have hR : ∀ x y : Fin 3 → Nat, (0 : Nat) = 0 ↔ SameAlong edge x y := by
          intro x y; simp [SameAlong, hed]
        have e3 := face_vertex (lay_W start n) same q 0 L nf (updW (n 0) ie) (by rcases hie with rfl | rfl <;> simp [updW]) (by rcases hie with rfl | rfl <;> simp [updW]) hn (le_refl 1) hx0 v hv M h hs hL (hν' 2 v)
        rw [hred ie hie']; exact faceRes_congr hF hR e3
      rcases hf with rfl | rfl
      · rcases he with he | he
        · exact k0 he 0 (by simp) (by subst he; decide)
        · simp [faceEdges] at he
          rcases he with rfl | rfl | rfl | rfl
          · exact kI (by simp) 1 (by simp) (by decide)
          · exact kI (by simp) 2 (by simp) (by decide)
          · exact kO (by simp) 5 (by simp) (by decide)
          · exact kO (by simp) 6 (by simp) (by decide)
      · rcases he with he | he
        · exact k0 he (-2) (by simp) (by subst he; decide)
        · simp [faceEdges] at he
          rcases he with rfl | rfl | rfl | rfl
          · exact kI (by simp) 1 (by simp) (by decide)
          · exact kI (by simp) 2 (by simp) (by decide)
          · exact kO (by simp) 5 (by simp) (by decide)
          · exact kO (by simp) 6 (by simp) (by decide)
  have hsf : collapseFace same swapW q (n 0) (n 1) (n 2) start face edge M = collapseFace same false q (n 0) (n 1) (n 2) start (face' : Nat) edge M := by
    rw [hsw]
    by_cases hc : swapW = true ∧ face > 4
    · rw [if_pos hc]
      have : ((11 - face : Nat) : Int) = 11 - (face : Int) := by omega
      rw [this]
      have hI : (if swapW = true ∧ (face : Int) > 4 then 11 - (face : Int) else face) = 11 - (face : Int) := if_pos ⟨hc.1, by have := hc.2; omega⟩
      unfold collapseFace
      simp only [Bool.false_eq_true, false_and, if_false, hI]
    · rw [if_neg hc]
      have hI : (if swapW = true ∧ (face : Int) > 4 then 11 - (face : Int) else face) = (face : Int) := if_neg (fun h => hc ⟨h.1, by have := h.2; omega⟩)
      unfold collapseFace
      simp only [Bool.false_eq_true, false_and, if_false, hI]
  rw [hsf]
  apply key face'
  · rw [hsw]; split <;> omega
  · rw [hsw]; split <;> omega
  · rcases hedge with he | he
    · exact Or.inl he
    · by_cases hc : swapW = true ∧ face > 4
      · exact Or.inl (hsw' hc.1 hc.2)
      · rw [hsw, if_neg hc]; exact Or.inr he


/-- C86: collapsing a face of a patch whose nodes are numbered in ascending order, into one of its edges or (edge zero) into a vertex: it succeeds if the nodes to be collapsed are co-located, and then each node of the face gets the smallest
number of the nodes it is collapsed with, while all other nodes keep their numbers. -/
theorem C86_collapse_face (same : Nat → Nat → Bool) (M : PatchModel K) (q L nf start : Nat) (n : Fin 3 → Nat) (face edge : Nat) (hface : 1 ≤ face ∧ face ≤ 6) (hedge : edge = 0 ∨ edge ∈ faceEdges face)
    (swapW : Bool) (face' : Nat) (hsw : face' = if swapW = true ∧ face > 4 then 11 - face else face) (hsw' : swapW = true → face > 4 → edge = 0)
    (h : HasPatch M q L nf) (hn : ∀ d, 1 ≤ n d) (hs : 1 ≤ start) (hL : start + n 0 * n 1 * n 2 ≤ L + 1)
    (hν : ∀ x y, InGrid n x → InGrid n y → gridNode start n x < gridNode start n y → nodeNum M q (gridNode start n x) < nodeNum M q (gridNode start n y))
    (hsame : ∀ x y, OnFace n face' x → OnFace n face' y → SameAlong edge x y → same (gridNode start n x) (gridNode start n y) = true) :
    ∃ M', collapseFace same swapW q (n 0) (n 1) (n 2) start face edge M = (true, M') ∧ HasPatch M' q L nf ∧
      Merged (nodeNum M q) (nodeNum M' q) start n (OnFace n face') (SameAlong edge) := by
  obtain ⟨e1, e2, e3⟩ := (collapse_face_res same M q L nf start n face edge hface hedge swapW face' hsw hsw' h hn hs hL hν).1 hsame
  exact ⟨_, Prod.ext e1 rfl, e2, e3⟩

/-- C86: if a face is collapsed, all nodes that become one are co-located with a common one of them. -/
theorem C86_collapse_face_located (same : Nat → Nat → Bool) (M : PatchModel K) (q L nf start : Nat) (n : Fin 3 → Nat) (face edge : Nat) (hface : 1 ≤ face ∧ face ≤ 6) (hedge : edge = 0 ∨ edge ∈ faceEdges face)
    (swapW : Bool) (face' : Nat) (hsw : face' = if swapW = true ∧ face > 4 then 11 - face else face) (hsw' : swapW = true → face > 4 → edge = 0)
    (h : HasPatch M q L nf) (hn : ∀ d, 1 ≤ n d) (hs : 1 ≤ start) (hL : start + n 0 * n 1 * n 2 ≤ L + 1)
    (hν : ∀ x y, InGrid n x → InGrid n y → gridNode start n x < gridNode start n y → nodeNum M q (gridNode start n x) < nodeNum M q (gridNode start n y))
    (hok : (collapseFace same swapW q (n 0) (n 1) (n 2) start face edge M).1 = true) :
    ∃ μ : (Fin 3 → Nat) → Fin 3 → Nat, ∀ x, OnFace n face' x → OnFace n face' (μ x) ∧ SameAlong edge x (μ x) ∧ (∀ y, OnFace n face' y → SameAlong edge x y → μ x = μ y) ∧
      (μ x = x ∨ same (gridNode start n x) (gridNode start n (μ x)) = true) :=
  (collapse_face_res same M q L nf start n face edge hface hedge swapW face' hsw hsw' h hn hs hL hν).2 hok

/-- C86: after collapsing a face of a patch whose nodes are numbered in ascending order, two nodes of the face have the same number exactly if they have the same position along the edge it is collapsed into, or if it is collapsed into a vertex. -/
theorem C86_collapse_face_iff (same : Nat → Nat → Bool) (M : PatchModel K) (q L nf start : Nat) (n : Fin 3 → Nat) (face edge : Nat) (hface : 1 ≤ face ∧ face ≤ 6) (hedge : edge = 0 ∨ edge ∈ faceEdges face)
    (h : HasPatch M q L nf) (hn : ∀ d, 1 ≤ n d) (hs : 1 ≤ start) (hL : start + n 0 * n 1 * n 2 ≤ L + 1)
    (hν : ∀ x y, InGrid n x → InGrid n y → gridNode start n x < gridNode start n y → nodeNum M q (gridNode start n x) < nodeNum M q (gridNode start n y))
    (hsame : ∀ x y, OnFace n face x → OnFace n face y → SameAlong edge x y → same (gridNode start n x) (gridNode start n y) = true) :
    ∃ M', collapseFace same false q (n 0) (n 1) (n 2) start face edge M = (true, M') ∧
      (∀ x y, OnFace n face x → OnFace n face y → (nodeNum M' q (gridNode start n x) = nodeNum M' q (gridNode start n y) ↔ SameAlong edge x y)) ∧
      ∀ a, (∀ x, OnFace n face x → a ≠ gridNode start n x) → nodeNum M' q a = nodeNum M q a := by
  obtain ⟨M', e1, _, e3, e4⟩ := C86_collapse_face same M q L nf start n face edge hface hedge false face (by simp) (by simp) h hn hs hL hν hsame
  refine ⟨M', e1, fun x y hx hy => ?_, e4⟩
  obtain ⟨⟨a, ha, hxa, va⟩, la⟩ := e3 x hx
  obtain ⟨⟨b, hb, hyb, vb⟩, lb⟩ := e3 y hy
  have symm : ∀ {x y : Fin 3 → Nat}, SameAlong edge x y → SameAlong edge y x := fun h => h.imp id Eq.symm
  have trans : ∀ {x y z : Fin 3 → Nat}, SameAlong edge x y → SameAlong edge y z → SameAlong edge x z := by
    intro x y z h h'
    rcases h with h | h
    · exact Or.inl h
    · rcases h' with h' | h'
      · exact Or.inl h'
      · exact Or.inr (h.trans h')
  constructor
  · intro he
    have hab : gridNode start n a = gridNode start n b := by
      rcases lt_trichotomy (gridNode start n a) (gridNode start n b) with hlt | heq | hgt
      · have := hν a b ha.1 hb.1 hlt; omega
      · exact heq
      · have := hν b a hb.1 ha.1 hgt; omega
    have := gridNode_inj ha.1 hb.1 hab
    rw [← this] at hyb
    exact trans hxa (symm hyb)
  · intro hg
    apply le_antisymm
    · rw [vb]; exact la b hb (trans hg hyb)
    · rw [va]; exact lb a ha (trans (symm hg) hxa)

/-- The first round refuses an invalid edge. -/
theorem faceOuter_invalid (same : Nat → Nat → Bool) (q N inc extra C m : Nat) (upd : Bool → Option Int) (hu : ∀ b, upd b = none) (hN : 1 ≤ N) (hC : 1 ≤ C) (M : PatchModel K) :
    faceOuter same q N inc extra upd C (m : Int) m M = (false, M) := by
  obtain ⟨N, rfl⟩ : ∃ e, N = e + 1 := ⟨N - 1, by omega⟩
  obtain ⟨C, rfl⟩ : ∃ e, C = e + 1 := ⟨C - 1, by omega⟩
  rw [faceOuter]
  rw [faceInner]
  simp [collapsePair, hu]

/-- C86: if the third direction of a patch is swapped, faces 5 and 6 cannot be collapsed into their edges: the face is swapped, but not its edge, so the edge is refused — or, for edge 2 of face 5, the whole face is collapsed into a vertex. -/
theorem C86_collapse_swapped (same : Nat → Nat → Bool) (M : PatchModel K) (q n1 n2 n3 start : Nat) (h1 : 1 ≤ n1) (h2 : 1 ≤ n2) (face edge : Nat) (hf : face = 5 ∨ face = 6) (he : edge ∈ faceEdges face) :
    (edge ≠ 2 → collapseFace same true q n1 n2 n3 start face edge M = (false, M)) ∧
    (edge = 2 → collapseFace same true q n1 n2 n3 start face edge M = collapseFace same true q n1 n2 n3 start face 0 M) := by
  rcases hf with rfl | rfl
  · simp [faceEdges] at he
    rcases he with rfl | rfl | rfl | rfl
    · refine ⟨fun _ => ?_, by simp⟩
      simp [collapseFace]
      exact faceOuter_invalid same q n1 1 0 n2 _ _ (by intro b; simp [updW]) h1 h2 M
    · refine ⟨by simp, fun _ => ?_⟩
      have : updW n1 0 = updW n1 (-2) := by funext b; simp [updW]
      simp [collapseFace, this]
    · refine ⟨fun _ => ?_, by simp⟩
      simp [collapseFace]
      exact faceOuter_invalid same q n1 1 0 n2 _ _ (by intro b; simp [updW]) h1 h2 M
    · refine ⟨fun _ => ?_, by simp⟩
      simp [collapseFace]
      exact faceOuter_invalid same q n1 1 0 n2 _ _ (by intro b; simp [updW]) h1 h2 M
  · simp [faceEdges] at he
    rcases he with rfl | rfl | rfl | rfl
    all_goals
      refine ⟨fun _ => ?_, by simp⟩
      simp [collapseFace]
      exact faceOuter_invalid same q n1 1 0 n2 _ _ (by intro b; simp [updW]) h1 h2 M

end IFEM.ClosePatch
