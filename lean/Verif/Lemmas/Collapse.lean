import Verif.Lemmas.ClosePatch
/-!
# Lemmas for C86: collapsed edges and faces
-/
namespace IFEM.ClosePatch
open IFEM IFEM.Spec IFEM.Props Spec
variable {K : Type} [Field K] [LinearOrder K]

theorem pairUp_self (ν : Nat → Int) (a : Nat) : pairUp ν (a, a) = ν := by
  funext x
  rw [pairUp]
  dsimp only
  split
  · rename_i h; rcases h with h | h <;> rw [h, min_self]
  · rfl

/-- Groups of nodes: if the first pair of each group yields the smallest number, all nodes of the group get it. -/
theorem pairAll_groups (G : Nat → Nat) (β : Nat → Int) (L : List (Nat × Nat)) (ν : Nat → Int)
    (hG : ∀ p ∈ L, G p.1 = G p.2) (hm : ∀ p ∈ L, ∀ r ∈ L, G p.2 = G r.2 → p.1 = r.1)
    (hlow : ∀ p ∈ L, β (G p.2) ≤ ν p.1 ∧ β (G p.2) ≤ ν p.2)
    (hfirst : ∀ L1 p L2, L = L1 ++ p :: L2 → (∀ r ∈ L1, G r.2 ≠ G p.2) → min (ν p.1) (ν p.2) = β (G p.2)) :
    (∀ p ∈ L, pairAll ν L p.1 = β (G p.2) ∧ pairAll ν L p.2 = β (G p.2)) ∧ ∀ x, (∀ p ∈ L, x ≠ p.1 ∧ x ≠ p.2) → pairAll ν L x = ν x := by
  induction L generalizing ν with
  | nil => exact ⟨by simp, fun _ _ => rfl⟩
  | cons a L ih =>
    have e : ∀ x, pairAll ν (a :: L) x = pairAll (pairUp ν a) L x := fun x => rfl
    have ha : min (ν a.1) (ν a.2) = β (G a.2) := hfirst [] a L rfl (by simp)
    have h1 : pairUp ν a a.1 = β (G a.2) := by simp [pairUp, ha]
    have h2 : pairUp ν a a.2 = β (G a.2) := by simp [pairUp, ha]
    have hG' := hG a (by simp)
    have hoff : ∀ x, G x ≠ G a.2 → pairUp ν a x = ν x := by
      intro x hx
      rw [pairUp, if_neg]
      rintro (h | h)
      · apply hx; rw [h, hG']
      · apply hx; rw [h]
    have hlow' : ∀ x, β (G x) ≤ ν x → β (G x) ≤ pairUp ν a x := by
      intro x hx
      by_cases h : G x = G a.2
      · rw [pairUp]
        split
        · rw [ha, h]
        · exact hx
      · rw [hoff x h]; exact hx
    obtain ⟨i1, i2⟩ := ih (pairUp ν a) (fun p hp => hG p (by simp [hp])) (fun p hp r hr => hm p (by simp [hp]) r (by simp [hr]))
      (fun p hp => by
        have := hlow p (by simp [hp])
        have hg := hG p (by simp [hp])
        refine ⟨?_, hlow' _ this.2⟩
        rw [← hg]; exact hlow' _ (by rw [hg]; exact this.1))
      (fun L1 p L2 hL hne => by
        have hp : p ∈ L := by rw [hL]; simp
        by_cases hg : G p.2 = G a.2
        · have hpa : p.1 = a.1 := hm p (by simp [hp]) a (by simp) hg
          have hv := (hlow p (by simp [hp])).2
          rw [hpa, h1, hg]
          apply min_eq_left
          rw [← hg]; exact hlow' _ hv
        · rw [hoff p.1 (by rw [hG p (by simp [hp])]; exact hg), hoff p.2 hg]
          refine hfirst (a :: L1) p L2 (by rw [hL]; rfl) (fun r hr => ?_)
          rcases List.mem_cons.mp hr with hr | hr
          · rw [hr]; exact fun h => hg h.symm
          · exact hne r hr)
    have occ : ∀ x, G x = G a.2 → pairUp ν a x = β (G a.2) → pairAll (pairUp ν a) L x = β (G a.2) := by
      intro x hx hv
      by_cases hc : ∀ p ∈ L, x ≠ p.1 ∧ x ≠ p.2
      · rw [i2 x hc, hv]
      · push Not at hc
        obtain ⟨p, hp, hpx⟩ := hc
        by_cases hx1 : x = p.1
        · rw [hx1, (i1 p hp).1, ← hG p (by simp [hp]), ← hx1, hx]
        · have := hpx hx1
          rw [this, (i1 p hp).2, ← this, hx]
    refine ⟨fun p hp => ?_, fun x hx => ?_⟩
    · rw [e, e]
      rcases List.mem_cons.mp hp with hp | hp
      · rw [hp]
        exact ⟨occ _ hG' h1, occ _ rfl h2⟩
      · exact i1 p hp
    · rw [e, i2 x (fun p hp => hx p (by simp [hp])), pairUp, if_neg]
      have := hx a (by simp)
      tauto

omit [LinearOrder K] in
theorem collapsePair_num (same : Nat → Nat → Bool) (M : PatchModel K) (q L nf m s : Nat) (h : HasPatch M q L nf) (h1 : 1 ≤ m ∧ m ≤ L) (h2 : 1 ≤ s ∧ s ≤ L) (hs : m ≠ s → same s m = true) :
    ∃ M', collapsePair same q m s M = (true, M') ∧ HasPatch M' q L nf ∧ nodeNum M' q = pairUp (nodeNum M q) (m, s) := by
  rw [collapsePair]
  by_cases hms : m = s
  · rw [if_pos hms]
    refine ⟨M, rfl, h, ?_⟩
    rw [hms, pairUp_self]
  · rw [if_neg hms, if_pos (hs hms)]
    obtain ⟨r1, r2⟩ := collapse_num M q L nf (m, s) h h1 h2
    exact ⟨_, rfl, r1, funext r2⟩

omit [LinearOrder K] in
theorem faceInner_spec (same : Nat → Nat → Bool) (q inc L nf : Nat) (upd : Bool → Option Int) (a b : Int) (ha : upd false = some a) (hb : upd true = some b) (c : Nat) (m : Int) (n : Nat) (M : PatchModel K) (μ : Nat → Nat)
    (h : HasPatch M q L nf) (hμ : ∀ i : Nat, i < c → m + a*i = μ i) (hr : ∀ i, i < c → (1 ≤ μ i ∧ μ i ≤ L) ∧ 1 ≤ n + inc*i ∧ n + inc*i ≤ L)
    (hs : ∀ i, i < c → μ i ≠ n + inc*i → same (n + inc*i) (μ i) = true) :
    ∃ M', faceInner same q inc upd c m n M = (true, m + (if c = 0 then 0 else a*((c : Int)-1) + b), n + inc*c, M') ∧ HasPatch M' q L nf ∧
      nodeNum M' q = pairAll (nodeNum M q) ((List.range c).map fun i => (μ i, n + inc*i)) := by
  induction c generalizing m n M μ with
  | zero => exact ⟨M, by simp [faceInner], h, rfl⟩
  | succ c ih =>
    have hm : m.toNat = μ 0 := by have := hμ 0 (by omega); simp at this; omega
    obtain ⟨M1, e1, e2, e3⟩ := collapsePair_num same M q L nf (μ 0) n h (hr 0 (by omega)).1 (by simpa using (hr 0 (by omega)).2) (by simpa using hs 0 (by omega))
    have hi : ∀ i, n + inc + inc*i = n + inc*(i+1) := fun i => by ring
    rw [faceInner, hm]
    rw [e1]
    dsimp only
    rw [if_pos rfl]
    by_cases hc : c = 0
    · subst hc
      simp only [decide_true, hb, faceInner]
      refine ⟨M1, ?_, e2, ?_⟩
      · simp
      · rw [e3]; simp [pairAll]
    · simp only [hc, decide_false, ha]
      obtain ⟨M2, f1, f2, f3⟩ := ih (m + a) (n + inc) M1 (fun i => μ (i+1)) e2
        (fun i hi' => by rw [← hμ (i+1) (by omega)]; push_cast; ring)
        (fun i hi' => by rw [hi]; exact hr (i+1) (by omega))
        (fun i hi' => by rw [hi]; exact hs (i+1) (by omega))
      refine ⟨M2, ?_, f2, ?_⟩
      · rw [f1, if_neg hc, if_neg (by omega)]
        simp only [Prod.mk.injEq, true_and]
        refine ⟨?_, ?_, trivial⟩
        · push_cast; ring
        · ring
      · rw [f3, e3, List.range_succ_eq_map, List.map_cons, List.map_map]
        show _ = pairAll (pairUp (nodeNum M q) (μ 0, n + inc*0)) _
        rw [Nat.mul_zero, Nat.add_zero]
        congr 1
        apply List.map_congr_left
        intro i _
        simp only [Function.comp_apply, Nat.succ_eq_add_one, hi]

omit [LinearOrder K] in
theorem faceOuter_spec (same : Nat → Nat → Bool) (q N inc extra L nf : Nat) (upd : Bool → Option Int) (a b : Int) (ha : upd false = some a) (hb : upd true = some b) (hN : 1 ≤ N) (c : Nat) (m : Int) (n : Nat) (M : PatchModel K) (μ : Nat → Nat → Nat)
    (h : HasPatch M q L nf) (hμ : ∀ o i : Nat, o < c → i < N → m + (a*((N : Int)-1) + b)*o + a*i = μ o i)
    (hr : ∀ o i, o < c → i < N → (1 ≤ μ o i ∧ μ o i ≤ L) ∧ 1 ≤ n + (inc*N + extra)*o + inc*i ∧ n + (inc*N + extra)*o + inc*i ≤ L)
    (hs : ∀ o i, o < c → i < N → μ o i ≠ n + (inc*N + extra)*o + inc*i → same (n + (inc*N + extra)*o + inc*i) (μ o i) = true) :
    ∃ M', faceOuter same q N inc extra upd c m n M = (true, M') ∧ HasPatch M' q L nf ∧
      nodeNum M' q = pairAll (nodeNum M q) ((List.range c).flatMap fun o => (List.range N).map fun i => (μ o i, n + (inc*N + extra)*o + inc*i)) := by
  induction c generalizing m n M μ with
  | zero => exact ⟨M, by simp [faceOuter], h, rfl⟩
  | succ c ih =>
    obtain ⟨M1, e1, e2, e3⟩ := faceInner_spec same q inc L nf upd a b ha hb N m n M (μ 0) h
      (fun i hi => by simpa using hμ 0 i (by omega) hi) (fun i hi => by simpa using hr 0 i (by omega) hi) (fun i hi => by simpa using hs 0 i (by omega) hi)
    have hi : ∀ o i, n + inc*N + extra + (inc*N + extra)*o + inc*i = n + (inc*N + extra)*(o+1) + inc*i := fun o i => by ring
    obtain ⟨M2, f1, f2, f3⟩ := ih (m + (a*((N : Int)-1) + b)) (n + inc*N + extra) M1 (fun o => μ (o+1)) e2
      (fun o i ho hi' => by rw [← hμ (o+1) i (by omega) hi']; push_cast; ring)
      (fun o i ho hi' => by rw [hi]; exact hr (o+1) i (by omega) hi')
      (fun o i ho hi' => by rw [hi]; exact hs (o+1) i (by omega) hi')
    refine ⟨M2, ?_, f2, ?_⟩
    · rw [faceOuter]
      rw [e1]
      dsimp only
      rw [if_pos rfl, if_neg (by omega)]
      exact f1
    · rw [f3, e3, List.range_succ_eq_map, List.flatMap_cons, List.flatMap_map, pairAll, pairAll, pairAll, List.foldl_append]
      simp only [Nat.mul_zero, Nat.add_zero, hi, Nat.succ_eq_add_one]

omit [LinearOrder K] in
theorem faceInner_true (same : Nat → Nat → Bool) (q inc : Nat) (upd : Bool → Option Int) (a b : Int) (ha : upd false = some a) (hb : upd true = some b) (c : Nat) (m : Int) (n : Nat) (M : PatchModel K) (μ : Nat → Nat)
    (hμ : ∀ i : Nat, i < c → m + a*i = μ i) (ht : (faceInner same q inc upd c m n M).1 = true) :
    (∀ i, i < c → μ i = n + inc*i ∨ same (n + inc*i) (μ i) = true) ∧
    ∃ M', faceInner same q inc upd c m n M = (true, m + (if c = 0 then 0 else a*((c : Int)-1) + b), n + inc*c, M') := by
  induction c generalizing m n M μ with
  | zero => exact ⟨by simp, M, by simp [faceInner]⟩
  | succ c ih =>
    have hm : m.toNat = μ 0 := by have := hμ 0 (by omega); simp at this; omega
    have hi : ∀ i, n + inc + inc*i = n + inc*(i+1) := fun i => by ring
    rw [faceInner, hm] at ht ⊢
    have hp : (collapsePair same q (μ 0) n M).1 = true → μ 0 = n ∨ same n (μ 0) = true := by
      rw [collapsePair]
      intro h
      by_cases h1 : μ 0 = n
      · exact Or.inl h1
      · rw [if_neg h1] at h
        by_cases h2 : same n (μ 0) = true
        · exact Or.inr h2
        · rw [if_neg h2] at h; simp at h
    by_cases hc : (collapsePair same q (μ 0) n M).1 = true
    · rw [if_pos hc] at ht ⊢
      by_cases hc0 : c = 0
      · subst hc0
        refine ⟨fun i hi' => ?_, ?_⟩
        · have : i = 0 := by omega
          subst this; simpa using hp hc
        · simp only [decide_true, hb, faceInner]
          exact ⟨(collapsePair same q (μ 0) n M).2, by simp⟩
      · simp only [hc0, decide_false, ha] at ht ⊢
        obtain ⟨i1, M2, i2⟩ := ih (m + a) (n + inc) _ (fun i => μ (i+1)) (fun i hi' => by rw [← hμ (i+1) (by omega)]; push_cast; ring) ht
        refine ⟨fun i hi' => ?_, M2, ?_⟩
        · rcases i with _ | i
          · simpa using hp hc
          · rw [← hi]; exact i1 i (by omega)
        · rw [i2, if_neg hc0, if_neg (by omega)]
          simp only [Prod.mk.injEq, true_and]
          refine ⟨?_, ?_, trivial⟩
          · push_cast; ring
          · ring
    · rw [if_neg hc] at ht
      simp at ht

omit [LinearOrder K] in
theorem faceOuter_true (same : Nat → Nat → Bool) (q N inc extra : Nat) (upd : Bool → Option Int) (a b : Int) (ha : upd false = some a) (hb : upd true = some b) (hN : 1 ≤ N) (c : Nat) (m : Int) (n : Nat) (M : PatchModel K) (μ : Nat → Nat → Nat)
    (hμ : ∀ o i : Nat, o < c → i < N → m + (a*((N : Int)-1) + b)*o + a*i = μ o i) (ht : (faceOuter same q N inc extra upd c m n M).1 = true) :
    ∀ o i, o < c → i < N → μ o i = n + (inc*N + extra)*o + inc*i ∨ same (n + (inc*N + extra)*o + inc*i) (μ o i) = true := by
  induction c generalizing m n M μ with
  | zero => intro o i ho; omega
  | succ c ih =>
    rw [faceOuter] at ht
    by_cases h1 : (faceInner same q inc upd N m n M).1 = true
    · rw [if_pos h1] at ht
      obtain ⟨i1, M1, i2⟩ := faceInner_true same q inc upd a b ha hb N m n M (μ 0) (fun i hi => by simpa using hμ 0 i (by omega) hi) h1
      rw [i2, if_neg (by omega)] at ht
      have hi : ∀ o i, n + inc*N + extra + (inc*N + extra)*o + inc*i = n + (inc*N + extra)*(o+1) + inc*i := fun o i => by ring
      have := ih (m + (a*((N : Int)-1) + b)) (n + inc*N + extra) M1 (fun o => μ (o+1)) (fun o i ho hi' => by rw [← hμ (o+1) i (by omega) hi']; push_cast; ring) ht
      intro o i ho hi'
      rcases o with _ | o
      · simpa using i1 i hi'
      · rw [← hi]; exact this o i (by omega) hi'
    · rw [if_neg h1] at ht
      simp at ht

end IFEM.ClosePatch
