import Verif.Props.ThreadGroups
import Verif.Lemmas.SparseOps
/-!
# C23, C24: threading groups of patch faces, and of triangulated patches
-/
namespace IFEM.Props
open IFEM.Spec IFEM.Threads

theorem cell_get (na nb : Nat) (f : Nat → Nat → Int) {a b : Nat} (ha : a < na) (hb : b < nb) :
    ((List.range nb).flatMap fun b => (List.range na).map fun a => f a b)[a + na*b]? = some (f a b) := by
  induction nb generalizing b with
  | zero => omega
  | succ nb ih =>
    rw [List.range_succ, List.flatMap_append]
    have hlen : ((List.range nb).flatMap fun b => (List.range na).map fun a => f a b).length = na*nb := by
      clear ih hb
      induction nb with
      | zero => simp
      | succ nb ih => rw [List.range_succ, List.flatMap_append, List.length_append, ih]; simp [Nat.mul_add]
    rcases Nat.lt_or_ge b nb with h | h
    · have hlt : a + na*b < na*nb := by
        have := Nat.mul_le_mul_left na (show b+1 ≤ nb by omega)
        rw [Nat.mul_add] at this; omega
      rw [List.getElem?_append_left (by rw [hlen]; exact hlt)]
      exact ih h
    · have : b = nb := by omega
      subst this
      rw [List.getElem?_append_right (by rw [hlen]; omega), hlen, show a + na*b - na*b = a by omega]
      simp [ha]

theorem applyMap_spec {G : Groups} {map : List Int} (h : ∀ e ∈ groupElms G, 0 ≤ e ∧ e < map.length) :
    applyMap G map = some ⟨G.stripDir, G.tg0.map (List.map fun e => map.getD e.toNat 0), G.tg1.map (List.map fun e => map.getD e.toNat 0)⟩ := by
  have key : ∀ L : List (List Int), (∀ l ∈ L, ∀ e ∈ l, e ∈ groupElms G) →
      (L.mapM fun l => l.mapM (at0? map)) = some (L.map (List.map fun e => map.getD e.toNat 0)) := by
    intro L hL
    refine mapM_some' L fun l hl => mapM_some' l fun e he => ?_
    have := h e (hL l hl e he)
    unfold at0?
    rw [if_pos this.1, List.getD_eq_getElem?_getD, List.getElem?_eq_getElem (by omega)]
    rfl
  unfold applyMap
  rw [key G.tg0 (fun l hl e he => List.mem_append_left _ (List.mem_flatten.mpr ⟨l, hl, he⟩)),
    key G.tg1 (fun l hl e he => List.mem_append_right _ (List.mem_flatten.mpr ⟨l, hl, he⟩))]
  rfl

theorem map_concurrent {G : Groups} {f : Int → Int} {x x' : Int} {d : StripDir}
    (h : Concurrent ⟨d, G.tg0.map (List.map f), G.tg1.map (List.map f)⟩ x x') : ∃ e e', Concurrent G e e' ∧ x = f e ∧ x' = f e' := by
  obtain ⟨grp, hg, t, t', hne, ⟨l, hl, he⟩, ⟨l', hl', he'⟩⟩ := h
  have key : ∀ L : List (List Int), grp = L.map (List.map f) → ∃ k k' e e', L[t]? = some k ∧ L[t']? = some k' ∧ e ∈ k ∧ e' ∈ k' ∧ x = f e ∧ x' = f e' := by
    rintro L rfl
    rw [List.getElem?_map] at hl hl'
    obtain ⟨k, hk, rfl⟩ := Option.map_eq_some_iff.mp hl
    obtain ⟨k', hk', rfl⟩ := Option.map_eq_some_iff.mp hl'
    obtain ⟨e, q, rfl⟩ := List.mem_map.mp he
    obtain ⟨e', q', rfl⟩ := List.mem_map.mp he'
    exact ⟨k, k', e, e', hk, hk', q, q', rfl, rfl⟩
  rcases hg with hg | hg
  · obtain ⟨k, k', e, e', q1, q2, q3, q4, q5, q6⟩ := key G.tg0 hg
    exact ⟨e, e', ⟨_, Or.inl rfl, t, t', hne, ⟨k, q1, q3⟩, ⟨k', q2, q4⟩⟩, q5, q6⟩
  · obtain ⟨k, k', e, e', q1, q2, q3, q4, q5, q6⟩ := key G.tg1 hg
    exact ⟨e, e', ⟨_, Or.inr rfl, t, t', hne, ⟨k, q1, q3⟩, ⟨k', q2, q4⟩⟩, q5, q6⟩

theorem concurrent_mem {G : Groups} {e e' : Int} (h : Concurrent G e e') : e ∈ groupElms G ∧ e' ∈ groupElms G := by
  obtain ⟨grp, hg, t, t', hne, ⟨l, hl, he⟩, ⟨l', hl', he'⟩⟩ := h
  have := List.mem_of_getElem? hl
  have := List.mem_of_getElem? hl'
  unfold groupElms
  simp only [List.mem_append, List.mem_flatten]
  rcases hg with rfl | rfl
  · exact ⟨Or.inl ⟨l, by assumption, he⟩, Or.inl ⟨l', by assumption, he'⟩⟩
  · exact ⟨Or.inr ⟨l, by assumption, he⟩, Or.inr ⟨l', by assumption, he'⟩⟩

/-- The outcome on a face with `na × nb` spans whose element at `(a,b)` is `φ a b`. -/
theorem face_generic {threads : Nat} (hT : 1 ≤ threads) (ela elb : List Bool) (pa pb : Nat) (φ : Nat → Nat → Nat)
    (hinj : ∀ a b a' b', a < ela.length → b < elb.length → a' < ela.length → b' < elb.length → φ a b = φ a' b' → a = a' ∧ b = b') :
    ∃ G', (do let G ← calcGroups2z threads .new ela elb pa pb
              applyMap G ((List.range elb.length).flatMap fun b => (List.range ela.length).map fun a => ((φ a b : Nat) : Int))) = some G' ∧
      (groupElms G').Nodup ∧ (∀ e ∈ groupElms G', ∃ a b, a < ela.length ∧ b < elb.length ∧ e = ((φ a b : Nat) : Int)) ∧
      (∀ a b, ela[a]? = some true → elb[b]? = some true → ((φ a b : Nat) : Int) ∈ groupElms G') ∧
      ∀ e e', Concurrent G' e e' → ∃ a b a' b', a < ela.length ∧ b < elb.length ∧ a' < ela.length ∧ b' < elb.length ∧
        e = ((φ a b : Nat) : Int) ∧ e' = ((φ a' b' : Nat) : Int) ∧
        ∀ da db : Dir, da.n = ela.length → db.n = elb.length → Safe pa da → Safe pb db → ¬ (da.share a a' ∧ db.share b b') := by
  obtain ⟨G, dir', he, hdir, _, ok⟩ := calcGroups2z_ok hT (G0 := .new) ⟨rfl, rfl⟩ (by simp [Groups.new]) ela elb pa pb
  have hlen : ((List.range elb.length).flatMap fun b => (List.range ela.length).map fun a => ((φ a b : Nat) : Int)).length = ela.length*elb.length := by
    generalize elb.length = nb
    induction nb with
    | zero => simp
    | succ nb ih => rw [List.range_succ, List.flatMap_append, List.length_append, ih]; simp [Nat.mul_add]
  have happ := applyMap_spec (G := G) (map := (List.range elb.length).flatMap fun b => (List.range ela.length).map fun a => ((φ a b : Nat) : Int))
    (fun e h => by rw [hlen]; exact ok.part.range e h)
  have hget : ∀ {e : Int} {a b : Nat}, At2 ela.length elb.length e a b →
      ((List.range elb.length).flatMap fun b => (List.range ela.length).map fun a => ((φ a b : Nat) : Int)).getD e.toNat 0 = ((φ a b : Nat) : Int) := by
    rintro e a b ⟨ha, hb, rfl⟩
    rw [Int.toNat_natCast, List.getD_eq_getElem?_getD, cell_get _ _ (fun a b => ((φ a b : Nat) : Int)) ha hb]
    rfl
  generalize ((List.range elb.length).flatMap fun b => (List.range ela.length).map fun a => ((φ a b : Nat) : Int)) = mp at happ hget
  refine ⟨_, by rw [he]; exact happ, ?_⟩
  have hall : groupElms ⟨G.stripDir, G.tg0.map (List.map fun e => mp.getD e.toNat 0), G.tg1.map (List.map fun e => mp.getD e.toNat 0)⟩ =
      (groupElms G).map fun e => mp.getD e.toNat 0 := by
    simp only [groupElms, List.map_append, List.map_flatten]
  have hat : ∀ e ∈ groupElms G, At2 ela.length elb.length e (e.toNat % ela.length) (e.toNat / ela.length) :=
    fun e h => at2_exists (ok.part.range e h).1 (ok.part.range e h).2
  refine ⟨?_, ?_, ?_, ?_⟩
  · rw [hall]
    refine List.Nodup.map_on ?_ ok.part.nodup
    intro x hx y hy hxy
    have ax := hat x hx
    have ay := hat y hy
    rw [hget ax, hget ay] at hxy
    obtain ⟨q1, q2⟩ := hinj _ _ _ _ ax.1 ax.2.1 ay.1 ay.2.1 (Int.ofNat.inj hxy)
    rw [ax.2.2, ay.2.2, q1, q2]
  · intro e h
    rw [hall] at h
    obtain ⟨x, hx, rfl⟩ := List.mem_map.mp h
    exact ⟨_, _, (hat x hx).1, (hat x hx).2.1, hget (hat x hx)⟩
  · intro a b ha hb
    have hax : At2 ela.length elb.length ((a + ela.length*b : Nat) : Int) a b :=
      ⟨(List.getElem?_eq_some_iff.mp ha).1, (List.getElem?_eq_some_iff.mp hb).1, rfl⟩
    rw [hall]
    exact List.mem_map.mpr ⟨_, ok.part.cover _ (real2_pos ⟨a, b, hax, ha, hb⟩), hget hax⟩
  · intro e e' hc
    obtain ⟨x, x', hcx, rfl, rfl⟩ := map_concurrent hc
    obtain ⟨mx, mx'⟩ := concurrent_mem hcx
    have ax := hat x mx
    have ax' := hat x' mx'
    refine ⟨_, _, _, _, ax.1, ax.2.1, ax'.1, ax'.2.1, hget ax, hget ax', ?_⟩
    rintro da db hna hnb sa sb ⟨s1, s2⟩
    have := calc_not_share2 hdir ok hna hnb sa sb hcx ax ax'
    rcases hdir with h | h
    · exact this.1 h s1
    · exact this.2 h s2

theorem at3_of {n1 n2 n3 i j k : Nat} (hi : i < n1) (hj : j < n2) (hk : k < n3) {x : Nat} (h : x = i + n1*(j + n2*k)) : At3 n1 n2 n3 (x : Int) i j k :=
  ⟨hi, hj, hk, by rw [h]⟩

theorem at3_inj {n1 n2 n3 i j k i' j' k' : Nat} {e : Int} (h : At3 n1 n2 n3 e i j k) (h' : At3 n1 n2 n3 e i' j' k') : i = i' ∧ j = j' ∧ k = k' := by
  have := at3_pos h
  have := at3_pos h'
  omega

/-- The element at face position `(a,b)` lies at grid position `pos a b` on the face, and every position on the face is of this form. -/
structure FaceMap (n1 n2 n3 face na nb : Nat) (φ : Nat → Nat → Nat) (ι : Nat → Nat → Nat × Nat × Nat) : Prop where
  at3 : ∀ a b, a < na → b < nb → At3 n1 n2 n3 ((φ a b : Nat) : Int) (ι a b).1 (ι a b).2.1 (ι a b).2.2
  on : ∀ a b, a < na → b < nb → OnFace n1 n2 n3 face (ι a b).1 (ι a b).2.1 (ι a b).2.2
  inj : ∀ a b a' b', ι a b = ι a' b' → a = a' ∧ b = b'
  surj : ∀ i j k, i < n1 → j < n2 → k < n3 → OnFace n1 n2 n3 face i j k → ∃ a b, a < na ∧ b < nb ∧ ι a b = (i, j, k)

theorem face_of {threads : Nat} (hT : 1 ≤ threads) {n1 n2 n3 face : Nat} (ela elb : List Bool) (pa pb : Nat) {φ : Nat → Nat → Nat} {ι : Nat → Nat → Nat × Nat × Nat}
    (hm : FaceMap n1 n2 n3 face ela.length elb.length φ ι) {real : Int → Prop}
    (hreal : ∀ e, real e → ∃ i j k, At3 n1 n2 n3 e i j k ∧ OnFace n1 n2 n3 face i j k ∧ ∀ a b, ι a b = (i, j, k) → ela[a]? = some true ∧ elb[b]? = some true)
    {d1 d2 d3 da db : Dir} (hna : da.n = ela.length) (hnb : db.n = elb.length) (sa : Safe pa da) (sb : Safe pb db) (hn1 : d1.n = n1) (hn2 : d2.n = n2) (hn3 : d3.n = n3)
    (hd : ∀ a b a' b', d1.share (ι a b).1 (ι a' b').1 → d2.share (ι a b).2.1 (ι a' b').2.1 → d3.share (ι a b).2.2 (ι a' b').2.2 → da.share a a' ∧ db.share b b') :
    ∃ G', (do let G ← calcGroups2z threads .new ela elb pa pb
              applyMap G ((List.range elb.length).flatMap fun b => (List.range ela.length).map fun a => ((φ a b : Nat) : Int))) = some G' ∧
      IsPartition G' (n1*n2*n3) real ∧ (∀ e ∈ groupElms G', ∃ i j k, At3 n1 n2 n3 e i j k ∧ OnFace n1 n2 n3 face i j k) ∧
      ∀ e e', Concurrent G' e e' → ¬ Share3 d1 d2 d3 e e' := by
  obtain ⟨G', h1, h2, h3, h4, h5⟩ := face_generic hT ela elb pa pb φ (by
    intro a b a' b' ha hb ha' hb' he
    have q := hm.at3 a b ha hb
    rw [he] at q
    obtain ⟨q1, q2, q3⟩ := at3_inj q (hm.at3 a' b' ha' hb')
    exact hm.inj _ _ _ _ (Prod.ext q1 (Prod.ext q2 q3)))
  refine ⟨G', h1, ⟨h2, ?_, ?_⟩, ?_, ?_⟩
  · intro e he
    obtain ⟨a, b, ha, hb, rfl⟩ := h3 e he
    have := at3_pos (hm.at3 a b ha hb)
    exact ⟨this.2.2.2.1, this.2.2.2.2⟩
  · intro e he
    obtain ⟨i, j, k, hat, hon, hfl⟩ := hreal e he
    obtain ⟨a, b, ha, hb, hι⟩ := hm.surj i j k hat.1 hat.2.1 hat.2.2.1 hon
    have q := hm.at3 a b ha hb
    rw [hι] at q
    rw [hat.2.2.2, ← q.2.2.2]
    exact h4 a b (hfl a b hι).1 (hfl a b hι).2
  · intro e he
    obtain ⟨a, b, ha, hb, rfl⟩ := h3 e he
    exact ⟨_, _, _, hm.at3 a b ha hb, hm.on a b ha hb⟩
  · rintro e e' hc ⟨i, j, k, i', j', k', hat, hat', s1, s2, s3⟩
    obtain ⟨a, b, a', b', ha, hb, ha', hb', rfl, rfl, hno⟩ := h5 e e' hc
    have q := hm.at3 a b ha hb
    have q' := hm.at3 a' b' ha' hb'
    rw [hn1, hn2, hn3] at hat hat'
    obtain ⟨rfl, rfl, rfl⟩ := at3_inj hat q
    obtain ⟨rfl, rfl, rfl⟩ := at3_inj hat' q'
    exact hno da db hna hnb sa sb (hd a b a' b' s1 s2 s3)

theorem faceMap12 {n1 n2 n3 face : Nat} (hf : face = 1 ∨ face = 2) (h1 : 0 < n1) :
    FaceMap n1 n2 n3 face n2 n3 (fun j k => j*n1 + k*n1*n2 + (face-1)*(n1-1)) (fun j k => ((face-1)*(n1-1), j, k)) := by
  have hi : (face-1)*(n1-1) < n1 := by rcases hf with rfl | rfl <;> simp <;> omega
  constructor
  · intro a b ha hb
    exact at3_of hi ha hb (by ring)
  · intro a b _ _
    rcases hf with rfl | rfl
    · simp [OnFace]
    · simp only [OnFace]; omega
  · intro a b a' b' h
    simp only [Prod.mk.injEq] at h
    exact h.2
  · intro i j k hi hj hk hon
    refine ⟨j, k, hj, hk, ?_⟩
    rcases hf with rfl | rfl
    · simp only [OnFace] at hon; simp [hon]
    · simp only [OnFace] at hon
      rw [show (2-1)*(n1-1) = i by omega]

theorem faceMap34 {n1 n2 n3 face : Nat} (hf : face = 3 ∨ face = 4) (h2 : 0 < n2) :
    FaceMap n1 n2 n3 face n1 n3 (fun i k => i + k*n1*n2 + (face-3)*(n1*(n2-1))) (fun i k => (i, (face-3)*(n2-1), k)) := by
  have hi : (face-3)*(n2-1) < n2 := by rcases hf with rfl | rfl <;> simp <;> omega
  constructor
  · intro a b ha hb
    exact at3_of ha hi hb (by ring)
  · intro a b _ _
    rcases hf with rfl | rfl
    · simp [OnFace]
    · simp only [OnFace]; omega
  · intro a b a' b' h
    simp only [Prod.mk.injEq] at h
    exact ⟨h.1, h.2.2⟩
  · intro i j k hi hj hk hon
    refine ⟨i, k, hi, hk, ?_⟩
    rcases hf with rfl | rfl
    · simp only [OnFace] at hon; simp [hon]
    · simp only [OnFace] at hon
      rw [show (4-3)*(n2-1) = j by omega]

theorem faceMap56 {n1 n2 n3 face : Nat} (hf : face = 5 ∨ face = 6) (h3 : 0 < n3) :
    FaceMap n1 n2 n3 face n1 n2 (fun i j => i + j*n1 + (face-5)*(n1*n2*(n3-1))) (fun i j => (i, j, (face-5)*(n3-1))) := by
  have hi : (face-5)*(n3-1) < n3 := by rcases hf with rfl | rfl <;> simp <;> omega
  constructor
  · intro a b ha hb
    exact at3_of ha hb hi (by ring)
  · intro a b _ _
    rcases hf with rfl | rfl
    · simp [OnFace]
    · simp only [OnFace]; omega
  · intro a b a' b' h
    simp only [Prod.mk.injEq] at h
    exact ⟨h.1, h.2.1⟩
  · intro i j k hi hj hk hon
    refine ⟨i, j, hi, hj, ?_⟩
    rcases hf with rfl | rfl
    · simp only [OnFace] at hon; simp [hon]
    · simp only [OnFace] at hon
      rw [show (6-5)*(n3-1) = k by omega]

/-- **C23, C24** (boundary faces of a three-dimensional patch). The groups for a face contain only elements on this face, those with a face of non-zero size exactly
once, and concurrent elements have no basis function in common. -/
theorem C23_faces {threads : Nat} (hT : 1 ≤ threads) {el1 el2 el3 : List Bool} (h1 : el1 ≠ []) (h2 : el2 ≠ []) (h3 : el3 ≠ []) (p1 p2 p3 : Nat) {face : Nat}
    (hf : 1 ≤ face) (hf' : face ≤ 6) {k1 k2 k3 : Nat} (hk1 : k1 ≤ p1) (hk2 : k2 ≤ p2) (hk3 : k3 ≤ p3) :
    ∃ G, faceGroups3 threads none el1 el2 el3 p1 p2 p3 face = some G ∧
      IsPartition G (el1.length*el2.length*el3.length) (RealFace el1 el2 el3 face) ∧
      (∀ e ∈ groupElms G, ∃ i j k, At3 el1.length el2.length el3.length e i j k ∧ OnFace el1.length el2.length el3.length face i j k) ∧
      ∀ e e', Concurrent G e e' → ¬ Share3 (splineDir el1.length p1 k1) (splineDir el2.length p2 k2) (splineDir el3.length p3 k3) e e' := by
  have l1 := List.length_pos_of_ne_nil h1
  have l2 := List.length_pos_of_ne_nil h2
  have l3 := List.length_pos_of_ne_nil h3
  unfold faceGroups3 boundaryElms3
  by_cases c1 : face = 1 ∨ face = 2
  · simp only [if_pos c1]
    refine face_of hT el2 el3 p2 p3 (faceMap12 (n2 := el2.length) (n3 := el3.length) c1 l1) ?_ (da := splineDir el2.length p2 k2) (db := splineDir el3.length p3 k3)
      rfl rfl (safe_spline le_rfl hk2) (safe_spline le_rfl hk3) rfl rfl rfl ?_
    · rintro e ⟨i, j, k, hat, hon, g1, g2, g3⟩
      refine ⟨i, j, k, hat, hon, ?_⟩
      intro a b hab
      simp only [Prod.mk.injEq] at hab
      rw [hab.2.1, hab.2.2]
      exact ⟨g2 (by omega), g3 (by omega)⟩
    · intro a b a' b' _ s2 s3; exact ⟨s2, s3⟩
  · by_cases c3 : face = 3 ∨ face = 4
    · simp only [if_neg c1, if_pos c3]
      refine face_of hT el1 el3 p1 p3 (faceMap34 (n1 := el1.length) (n3 := el3.length) c3 l2) ?_ (da := splineDir el1.length p1 k1) (db := splineDir el3.length p3 k3)
        rfl rfl (safe_spline le_rfl hk1) (safe_spline le_rfl hk3) rfl rfl rfl ?_
      · rintro e ⟨i, j, k, hat, hon, g1, g2, g3⟩
        refine ⟨i, j, k, hat, hon, ?_⟩
        intro a b hab
        simp only [Prod.mk.injEq] at hab
        rw [hab.1, hab.2.2]
        exact ⟨g1 (by omega), g3 (by omega)⟩
      · intro a b a' b' s1 _ s3; exact ⟨s1, s3⟩
    · have c5 : face = 5 ∨ face = 6 := by omega
      simp only [if_neg c1, if_neg c3, if_pos c5]
      refine face_of hT el1 el2 p1 p2 (faceMap56 (n1 := el1.length) (n2 := el2.length) c5 l3) ?_ (da := splineDir el1.length p1 k1) (db := splineDir el2.length p2 k2)
        rfl rfl (safe_spline le_rfl hk1) (safe_spline le_rfl hk2) rfl rfl rfl ?_
      · rintro e ⟨i, j, k, hat, hon, g1, g2, g3⟩
        refine ⟨i, j, k, hat, hon, ?_⟩
        intro a b hab
        simp only [Prod.mk.injEq] at hab
        rw [hab.1, hab.2.1]
        exact ⟨g1 (by omega), g2 (by omega)⟩
      · intro a b a' b' s1 s2 _; exact ⟨s1, s2⟩

/-- The face must not be registered before: a rigid coupling on a face registers the face with direction `NONE` (ASMs3D.C:3986-3990), and the groups then generated for it contain
all elements of the patch, also those not on the face. -/
theorem C23_rigid_face (threads : Nat) (el1 el2 el3 : List Bool) (p1 p2 p3 face : Nat) :
    ∃ G, faceGroups3 threads (some (.new .NONE)) el1 el2 el3 p1 p2 p3 face = some G ∧
      ∀ e : Int, 0 ≤ e → e < (el1.length*el2.length*el3.length : Nat) → e ∈ groupElms G :=
  ⟨_, rfl, fun e h0 h1 => (oneGroup_partition _ _).cover e ⟨h0, h1⟩⟩

/-! ## Triangulated patches -/

theorem mem_triangulate {l : List Int} {x : Int} : x ∈ triangulate l ↔ x / 2 ∈ l := by
  unfold triangulate
  rw [List.mem_flatMap]
  constructor
  · rintro ⟨q, hq, hx⟩
    simp only [List.mem_cons, List.not_mem_nil, or_false] at hx
    have : x / 2 = q := by omega
    rw [this]; exact hq
  · intro h
    refine ⟨x/2, h, ?_⟩
    simp only [List.mem_cons, List.not_mem_nil, or_false]
    omega

theorem triangulate_nodup : ∀ {l : List Int}, l.Nodup → (triangulate l).Nodup := by
  intro l hl
  refine nodup_flatMap_inj hl (fun a _ => by simp) ?_
  intro a _ b _ x hx hx'
  simp only [List.mem_cons, List.not_mem_nil, or_false] at hx hx'
  omega

theorem triangulate_flatten (L : List (List Int)) : (L.map triangulate).flatten = triangulate L.flatten := by
  induction L with
  | nil => rfl
  | cons l L ih => simp only [List.map_cons, List.flatten_cons, ih]; simp [triangulate]

/-- **C23, C24** (triangles). On a patch of `nx × ny` nodes divided into triangles, triangles `2q` and `2q+1` making up cell `q`, every triangle is assigned exactly once, and concurrent
triangles belong to cells without a common node. -/
theorem C23_triangles {threads : Nat} (hT : 1 ≤ threads) {dir : StripDir} (hd : dir ≠ .W) (hd' : dir ≠ .NONE) (nx ny : Nat) :
    ∃ G, triGroups threads (.new dir) nx ny = some G ∧
      IsPartition G (2*((nx-1)*(ny-1))) (fun e => 0 ≤ e ∧ e < (2*((nx-1)*(ny-1)) : Nat)) ∧
      ∀ k1 k2, k1 ≤ 1 → k2 ≤ 1 → ∀ e e', Concurrent G e e' → ¬ Share2 (lagDir (nx-1) 1 k1) (lagDir (ny-1) 1 k2) (e/2) (e'/2) := by
  obtain ⟨G, hG, hp, hc⟩ := C24_lagrange_2d hT hd nx ny (p1 := 2) (p2 := 2) le_rfl le_rfl
  unfold lagGroups2 at hG
  simp only [show 2-1 = 1 from rfl, Nat.div_one] at hG hp hc
  refine ⟨⟨G.stripDir, G.tg0.map triangulate, G.tg1.map triangulate⟩, ?_, ?_, ?_⟩
  · unfold triGroups
    have hn : ¬ (Groups.new dir).stripDir = .NONE := by simpa [Groups.new] using hd'
    rw [if_neg hn] at hG ⊢
    rw [hG]; rfl
  · have hall : groupElms ⟨G.stripDir, G.tg0.map triangulate, G.tg1.map triangulate⟩ = triangulate (groupElms G) := by
      simp only [groupElms, triangulate_flatten]
      simp [triangulate]
    constructor
    · rw [hall]; exact triangulate_nodup hp.nodup
    · intro e he
      rw [hall, mem_triangulate] at he
      have := hp.range _ he
      push_cast at this ⊢
      omega
    · rintro e ⟨h0, h1⟩
      rw [hall, mem_triangulate]
      push_cast at h1
      exact hp.cover _ ⟨by omega, by push_cast; omega⟩
  · intro k1 k2 hk1 hk2 e e' hcc
    refine hc k1 k2 hk1 hk2 _ _ ?_
    obtain ⟨grp, hg, t, t', hne, ⟨l, hl, he⟩, ⟨l', hl', he'⟩⟩ := hcc
    have key : ∀ L : List (List Int), grp = L.map triangulate → ∃ k k', L[t]? = some k ∧ L[t']? = some k' ∧ e/2 ∈ k ∧ e'/2 ∈ k' := by
      rintro L rfl
      rw [List.getElem?_map] at hl hl'
      obtain ⟨k, hk, rfl⟩ := Option.map_eq_some_iff.mp hl
      obtain ⟨k', hk', rfl⟩ := Option.map_eq_some_iff.mp hl'
      exact ⟨k, k', hk, hk', mem_triangulate.mp he, mem_triangulate.mp he'⟩
    rcases hg with hg | hg
    · obtain ⟨k, k', q1, q2, q3, q4⟩ := key G.tg0 hg
      exact ⟨_, Or.inl rfl, t, t', hne, ⟨k, q1, q3⟩, ⟨k', q2, q4⟩⟩
    · obtain ⟨k, k', q1, q2, q3, q4⟩ := key G.tg1 hg
      exact ⟨_, Or.inr rfl, t, t', hne, ⟨k, q1, q3⟩, ⟨k', q2, q4⟩⟩

/-- With multi-threading deactivated (direction `NONE`), the numbers of the triangles are doubled once more: elements which do not exist are assigned. -/
theorem C23_triangles_none (threads : Nat) {nx ny : Nat} (hx : 2 ≤ nx) (hy : 2 ≤ ny) :
    ∃ G, triGroups threads (.new .NONE) nx ny = some G ∧ ∃ e ∈ groupElms G, ¬ e < (2*((nx-1)*(ny-1)) : Nat) := by
  refine ⟨_, rfl, ((2*((nx-1)*(ny-1)) : Nat) : Int), ?_, by omega⟩
  have h1 : 1 ≤ (nx-1)*(ny-1) := Nat.mul_pos (by omega) (by omega)
  simp only [groupElms, oneGroup, List.map_cons, List.map_nil, List.flatten_cons, List.flatten_nil, List.append_nil]
  rw [mem_triangulate, List.mem_map]
  refine ⟨(nx-1)*(ny-1), List.mem_range.mpr (by omega), ?_⟩
  simp only [Int.ofNat_eq_natCast]
  push_cast
  omega

/-- A face of 4 × 3 elements of a 2 × 4 × 3 patch on two threads. -/
example : (faceGroups3 2 none [true, true] [true, true, true, true] [true, true, true] 1 1 1 2).map (fun G => (G.tg0, G.tg1)) =
    some ([[1, 9, 17], [5, 13, 21]], [[3, 11, 19], [7, 15, 23]]) := by decide +kernel

/-- Without a strip direction (and more than one thread) the elements are not partitioned; the callers therefore do not compute groups in this case. -/
theorem C23_no_direction : (calcGroups2 2 (.new .NONE) 4 4 1).map (fun G => decide (groupElms G).Nodup) = some false := by decide +kernel

end IFEM.Props
