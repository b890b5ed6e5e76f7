import Mathlib.Data.List.Nodup
import Mathlib.Data.List.Flatten
import Mathlib.Tactic.Linarith
import Mathlib.Tactic.Ring
import Verif.Spec.ThreadGroups
/-!
# Lemmas on threading groups
-/
namespace IFEM.Threads
open IFEM.Spec

theorem shrink_spec (els m : Nat) : ∀ t parts, (1 < t → parts = 2*t) → 1 ≤ t →
    (shrink els m t parts).1 = 1 ∨
    (1 < (shrink els m t parts).1 ∧ (shrink els m t parts).2 = els / (2*(shrink els m t parts).1) ∧ m ≤ (shrink els m t parts).2)
  | 0, _, _, h => by omega
  | 1, _, _, _ => by left; simp [shrink]
  | t+2, parts, hp, _ => by
    have hp' := hp (by omega)
    unfold shrink
    by_cases h : els/parts < m
    · rw [if_pos h]
      exact shrink_spec els m (t+1) (parts-2) (fun _ => by omega) (by omega)
    · rw [if_neg h]
      right
      refine ⟨by simp, ?_, by simpa using h⟩
      show els/parts = els/(2*(t+2))
      rw [hp']

theorem add0?_nat (s : List Nat) (k : Nat) (h : k < s.length) :
    add0? s (k : Int) 1 = some (s.set k (s[k] + 1)) := by
  unfold add0? at0?
  simp [h]

theorem sum_set_nat : ∀ (s : List Nat) (k : Nat) (h : k < s.length), (s.set k (s[k] + 1)).sum = s.sum + 1
  | [], k, h => by simp at h
  | a :: s, 0, h => by simp; omega
  | a :: s, k+1, h => by
    have h' : k < s.length := by simpa using h
    have := sum_set_nat s k h'
    simp only [List.set_cons_succ, List.getElem_cons_succ, List.sum_cons, this]
    omega

theorem ge_set_nat (s : List Nat) (k b : Nat) (h : k < s.length) (hb : ∀ x ∈ s, b ≤ x) : ∀ x ∈ s.set k (s[k] + 1), b ≤ x := by
  intro x hx
  rcases List.mem_or_eq_of_mem_set hx with hx | hx
  · exact hb x hx
  · have := hb _ (List.getElem_mem h); omega

/-- The state of the strip sizes after some remainder steps. -/
structure SizesOk (T b tot : Nat) (s : List Nat × List Nat) : Prop where
  len0 : s.1.length = T
  len1 : s.2.length = T
  ge0 : ∀ x ∈ s.1, b ≤ x
  ge1 : ∀ x ∈ s.2, b ≤ x
  sum : s.1.sum + s.2.sum = tot

theorem bump_ok {T b tot : Nat} {s} (hs : SizesOk T b tot s) {i : Nat} (h1 : 1 ≤ i) (hi : i < 2*T) :
    ∃ s', bump T s i = some s' ∧ SizesOk T b (tot+1) s' := by
  have hk : ((T : Int) - ((i+1)/2 : Nat)) = ((T - (i+1)/2 : Nat) : Int) := by omega
  unfold bump
  by_cases hp : i % 2 = 0
  · have hlt : T - (i+1)/2 < s.1.length := by rw [hs.len0]; omega
    refine ⟨(s.1.set (T - (i+1)/2) (s.1[T - (i+1)/2] + 1), s.2), ?_, ?_⟩
    · rw [if_pos hp, hk, add0?_nat _ _ hlt]; rfl
    · refine ⟨by simp [hs.len0], hs.len1, ge_set_nat _ _ _ hlt hs.ge0, hs.ge1, ?_⟩
      have := sum_set_nat s.1 _ hlt
      have := hs.sum
      show (s.1.set _ _).sum + s.2.sum = _
      omega
  · have hlt : T - (i+1)/2 < s.2.length := by rw [hs.len1]; omega
    refine ⟨(s.1, s.2.set (T - (i+1)/2) (s.2[T - (i+1)/2] + 1)), ?_, ?_⟩
    · rw [if_neg hp, hk, add0?_nat _ _ hlt]; rfl
    · refine ⟨hs.len0, by simp [hs.len1], hs.ge0, ge_set_nat _ _ _ hlt hs.ge1, ?_⟩
      have := sum_set_nat s.2 _ hlt
      have := hs.sum
      show s.1.sum + (s.2.set _ _).sum = _
      omega

theorem bump_fold {T b : Nat} : ∀ (r tot : Nat) (s), SizesOk T b tot s → ∀ a, 1 ≤ a → a + r ≤ 2*T →
    ∃ s', (List.range' a r).foldlM (bump T) s = some s' ∧ SizesOk T b (tot+r) s'
  | 0, tot, s, hs, a, _, _ => ⟨s, rfl, hs⟩
  | r+1, tot, s, hs, a, h1, hr => by
    obtain ⟨s1, e1, h⟩ := bump_ok hs h1 (by omega)
    obtain ⟨s2, e2, h'⟩ := bump_fold r (tot+1) s1 h (a+1) (by omega) (by omega)
    refine ⟨s2, ?_, by rw [show tot+(r+1) = tot+1+r by omega]; exact h'⟩
    rw [List.range'_succ, List.foldlM_cons, e1]
    exact e2

theorem stripSizes_ok {T els b : Nat} (hT : 0 < T) (hb : b = els/(2*T)) :
    ∃ s, stripSizes T b (els - b*(2*T)) = some s ∧ SizesOk T b els s := by
  have hdm := Nat.div_add_mod els (2*T)
  have hlt := Nat.mod_lt els (show 0 < 2*T by omega)
  have hr : els - b*(2*T) = els % (2*T) := by
    rw [hb, Nat.mul_comm]; omega
  have h0 : SizesOk T b (b*(2*T)) (List.replicate T b, List.replicate T b) := by
    refine ⟨by simp, by simp, ?_, ?_, ?_⟩
    · intro x hx; exact (List.eq_of_mem_replicate hx).ge
    · intro x hx; exact (List.eq_of_mem_replicate hx).ge
    · simp; ring
  obtain ⟨s, e, h⟩ := bump_fold (els % (2*T)) _ _ h0 1 (le_refl _) (by omega)
  refine ⟨s, by rw [hr]; exact e, ?_⟩
  have : b*(2*T) + els % (2*T) = els := by rw [hb, Nat.mul_comm]; omega
  rw [← this]; exact h

/-! ### Scanning zero spans -/

theorem scan_spec : ∀ (z : List Bool) (n : Nat), n ≤ countSpans z →
    ∃ w, scan z n = some w ∧ w ≤ z.length ∧ countSpans (z.take w) = n
  | z, 0, _ => by
    refine ⟨0, ?_, by simp, by simp [countSpans]⟩
    cases z <;> rfl
  | [], n+1, h => by simp [countSpans] at h
  | true :: z, n+1, h => by
    obtain ⟨w, e, hw, hc⟩ := scan_spec z n (by simp [countSpans] at h ⊢; omega)
    refine ⟨w+1, by simp [scan, e], by simpa using hw, ?_⟩
    simp [countSpans] at hc ⊢; omega
  | false :: z, n+1, h => by
    obtain ⟨w, e, hw, hc⟩ := scan_spec z (n+1) (by simp [countSpans] at h ⊢; omega)
    refine ⟨w+1, by simp [scan, e], by simpa using hw, ?_⟩
    simp [countSpans] at hc ⊢; omega

theorem countSpans_append (a b : List Bool) : countSpans (a ++ b) = countSpans a + countSpans b := by
  simp [countSpans]

/-- The number of non-zero spans in `[x,y)`. -/
def between (elz : List Bool) (x y : Nat) : Nat := countSpans ((elz.drop x).take (y-x))

theorem between_add (elz : List Bool) {x y z : Nat} (h : x ≤ y) (h' : y ≤ z) :
    between elz x z = between elz x y + between elz y z := by
  unfold between
  rw [← countSpans_append, show z - x = (y-x) + (z-y) by omega, List.take_add, List.drop_drop, show x + (y-x) = y by omega]

theorem between_mono (elz : List Bool) {x y x' y' : Nat} (h : x ≤ x') (hxy : x' ≤ y') (h' : y' ≤ y) :
    between elz x' y' ≤ between elz x y := by
  rw [between_add elz h (by omega : x' ≤ y), between_add elz hxy h']; omega

theorem between_le (elz : List Bool) (x y : Nat) : between elz x y ≤ y - x := by
  unfold between countSpans
  exact (List.countP_le_length).trans (by simp)

/-- Strips tile the spans from `offs` on; `stop` is where the last one ends.  Every strip has at least `m` non-zero spans. -/
inductive Tiles (elz : List Bool) (m : Nat) : Nat → List ((Nat × Nat) × (Nat × Nat)) → Nat → Prop
  | nil (offs) : Tiles elz m offs [] offs
  | cons {offs a b r stop} : m ≤ between elz offs (offs+a) → m ≤ between elz (offs+a) (offs+a+b) →
      Tiles elz m (offs+a+b) r stop → Tiles elz m offs (((offs, a), (offs+a, b)) :: r) stop

theorem cutZero_spec (elz : List Bool) (m : Nat) : ∀ (s0 s1 : List Nat) (offs : Nat), s0.length = s1.length →
    (∀ x ∈ s0, m ≤ x) → (∀ x ∈ s1, m ≤ x) → s0.sum + s1.sum ≤ countSpans (elz.drop offs) → offs ≤ elz.length →
    ∃ cuts stop, cutZero elz offs s0 s1 = some cuts ∧ Tiles elz m offs cuts stop ∧ cuts.length = s0.length ∧
      stop ≤ elz.length ∧ between elz offs stop = s0.sum + s1.sum
  | [], [], offs, _, _, _, _, hle => ⟨[], offs, rfl, .nil _, rfl, hle, by simp [between, countSpans]⟩
  | [], _ :: _, _, h, _, _, _, _ => by simp at h
  | _ :: _, [], _, h, _, _, _, _ => by simp at h
  | a :: s0, b :: s1, offs, hl, h0, h1, hs, hle => by
    simp only [List.sum_cons] at hs
    obtain ⟨w0, e0, hw0, c0⟩ := scan_spec (elz.drop offs) a (by omega)
    have hw0' : offs + w0 ≤ elz.length := by simp at hw0; omega
    have hd0 : countSpans (elz.drop offs) = a + countSpans (elz.drop (offs+w0)) := by
      conv_lhs => rw [← List.take_append_drop w0 (elz.drop offs)]
      rw [countSpans_append, c0, List.drop_drop]
    obtain ⟨w1, e1, hw1, c1⟩ := scan_spec (elz.drop (offs+w0)) b (by omega)
    have hw1' : offs + w0 + w1 ≤ elz.length := by simp at hw1; omega
    have hd1 : countSpans (elz.drop (offs+w0)) = b + countSpans (elz.drop (offs+w0+w1)) := by
      conv_lhs => rw [← List.take_append_drop w1 (elz.drop (offs+w0))]
      rw [countSpans_append, c1, List.drop_drop]
    obtain ⟨cuts, stop, e, ht, hlen, hst, hbt⟩ := cutZero_spec elz m s0 s1 (offs+w0+w1) (by simpa using hl)
      (fun x hx => h0 x (by simp [hx])) (fun x hx => h1 x (by simp [hx])) (by omega) hw1'
    have b0 : between elz offs (offs+w0) = a := by
      unfold between; rw [show offs + w0 - offs = w0 by omega]; exact c0
    have b1 : between elz (offs+w0) (offs+w0+w1) = b := by
      unfold between; rw [show offs + w0 + w1 - (offs+w0) = w1 by omega]; exact c1
    have hst' : offs+w0+w1 ≤ stop := by
      clear e hlen hst hbt
      revert ht
      generalize offs+w0+w1 = o
      intro ht
      induction ht with
      | nil => exact le_refl _
      | cons _ _ _ ih => omega
    refine ⟨((offs, w0), (offs+w0, w1)) :: cuts, stop, ?_, ?_, by simp [hlen], hst, ?_⟩
    · simp only [cutZero, e0, e1, e, Option.bind_eq_bind, Option.bind_some]
    · exact .cons (by rw [b0]; exact h0 a (by simp)) (by rw [b1]; exact h1 b (by simp)) ht
    · rw [between_add elz (by omega : offs ≤ offs+w0) (by omega), between_add elz (by omega : offs+w0 ≤ offs+w0+w1) hst', b0, b1, hbt]
      simp only [List.sum_cons]; omega

theorem scan_true : ∀ (n k : Nat), k ≤ n → scan (List.replicate n true) k = some k
  | n, 0, _ => by cases n <;> rfl
  | 0, k+1, h => by omega
  | n+1, k+1, h => by
    rw [List.replicate_succ]
    show (scan (List.replicate n true) k).map (· + 1) = _
    rw [scan_true n k (by omega)]; rfl

theorem countSpans_true (n : Nat) : countSpans (List.replicate n true) = n := by
  unfold countSpans; rw [List.countP_replicate]; simp

theorem cutZero_plain (n : Nat) : ∀ (s0 s1 : List Nat) (offs : Nat), s0.length = s1.length → offs + s0.sum + s1.sum ≤ n →
    cutZero (List.replicate n true) offs s0 s1 = some (cutPlain offs s0 s1)
  | [], [], _, _, _ => rfl
  | [], _ :: _, _, h, _ => by simp at h
  | _ :: _, [], _, h, _ => by simp at h
  | a :: s0, b :: s1, offs, hl, h => by
    simp only [List.sum_cons] at h
    have ih := cutZero_plain n s0 s1 (offs+a+b) (by simpa using hl) (by omega)
    simp only [cutZero, cutPlain, List.drop_replicate, scan_true _ a (by omega : a ≤ n - offs),
      scan_true _ b (by omega : b ≤ n - (offs+a)), ih, Option.bind_eq_bind, Option.bind_some]

/-! ### From strips to groups -/

/-- `strip` lists, without repetition, the elements `e` among `0..nel-1` at a position `pos e` inside the strip; `n` positions exist. -/
structure StripOk (strip : Nat × Nat → List Int) (nel n : Nat) (pos : Int → Nat) : Prop where
  pos_lt : ∀ e : Int, 0 ≤ e → e < nel → pos e < n
  nodup : ∀ s w, s + w ≤ n → (strip (s, w)).Nodup
  mem : ∀ s w e, s + w ≤ n → (e ∈ strip (s, w) ↔ 0 ≤ e ∧ e < nel ∧ s ≤ pos e ∧ pos e < s + w)

theorem pushStrips_nil (T : Nat) (ss : List (List Int)) (h : ss.length = T) : pushStrips [] T ss = ss := by
  subst h
  unfold pushStrips vresize
  simp only [List.take_nil, List.length_nil, Nat.sub_zero, List.nil_append]
  induction ss with
  | nil => rfl
  | cons a l ih => simp only [List.length_cons, List.replicate_succ, List.zipWith_cons_cons, List.nil_append, ih]

theorem tiles_le {elz m} : ∀ {offs cuts stop}, Tiles elz m offs cuts stop → offs ≤ stop := by
  intro offs cuts stop h
  induction h with
  | nil => exact le_refl _
  | cons _ _ _ ih => omega

theorem tiles_mem {elz m} {offs cuts stop} (h : Tiles elz m offs cuts stop) :
    ∀ c ∈ cuts, offs ≤ c.1.1 ∧ c.1.1 + c.1.2 = c.2.1 ∧ c.2.1 + c.2.2 ≤ stop := by
  induction h with
  | nil => intro c hc; simp at hc
  | cons _ _ ht ih =>
    intro c hc
    have := tiles_le ht
    rcases List.mem_cons.mp hc with rfl | hc
    · simp; omega
    · have := ih c hc; omega

variable {strip : Nat × Nat → List Int} {nel n : Nat} {pos : Int → Nat} {elz : List Bool} {m : Nat}

theorem flat_spec (hs : StripOk strip nel n pos) {offs cuts stop} (h : Tiles elz m offs cuts stop) (hn : stop ≤ n) :
    (∀ e, e ∈ cuts.flatMap (fun c => strip c.1 ++ strip c.2) ↔ 0 ≤ e ∧ e < nel ∧ offs ≤ pos e ∧ pos e < stop) ∧
    (cuts.flatMap (fun c => strip c.1 ++ strip c.2)).Nodup := by
  induction h with
  | nil offs => exact ⟨fun e => by simp, by simp⟩
  | @cons offs a b r stop _ _ ht ih =>
    have hle := tiles_le ht
    obtain ⟨ih1, ih2⟩ := ih hn
    have m0 := fun e => hs.mem offs a e (by omega)
    have m1 := fun e => hs.mem (offs+a) b e (by omega)
    constructor
    · intro e
      rw [List.flatMap_cons, List.mem_append, List.mem_append, ih1, m0, m1]
      constructor
      · rintro ((h|h)|h) <;> omega
      · intro h; omega
    · rw [List.flatMap_cons, List.nodup_append, List.nodup_append]
      refine ⟨⟨hs.nodup _ _ (by omega), hs.nodup _ _ (by omega), ?_⟩, ih2, ?_⟩
      · intro x hx y hy hxy
        subst hxy
        have := (m0 x).mp hx
        have := (m1 x).mp hy
        omega
      · intro x hx y hy hxy
        subst hxy
        have h2 := (ih1 x).mp hy
        rcases List.mem_append.mp hx with hx | hx
        · have := (m0 x).mp hx; omega
        · have := (m1 x).mp hx; omega

theorem flat_perm {α β : Type} (f g : α → List β) : ∀ cuts : List α,
    ((cuts.map f).flatten ++ (cuts.map g).flatten).Perm (cuts.flatMap (fun c => f c ++ g c))
  | [] => by simp
  | c :: cuts => by
    simp only [List.map_cons, List.flatten_cons, List.flatMap_cons, List.append_assoc]
    refine List.Perm.append_left _ ?_
    refine List.Perm.trans ?_ (List.Perm.append_left _ (flat_perm f g cuts))
    rw [← List.append_assoc, ← List.append_assoc]
    exact List.Perm.append_right _ List.perm_append_comm

theorem tiles_width {offs cuts stop} (h : Tiles elz m offs cuts stop) : ∀ c ∈ cuts,
    m ≤ between elz c.1.1 (c.1.1+c.1.2) ∧ m ≤ between elz c.2.1 (c.2.1 + c.2.2) := by
  induction h with
  | nil => intro c hc; simp at hc
  | cons g0 g1 ht ih =>
    intro c hc
    rcases List.mem_cons.mp hc with rfl | hc
    · exact ⟨g0, g1⟩
    · exact ih c hc

/-- What follows from a tiling for two strips, the `t`th and `t'`th pair, `t < t'`. -/
theorem tiles_sep {offs cuts stop} (h : Tiles elz m offs cuts stop) : ∀ {t t' : Nat} {c c'}, t < t' → cuts[t]? = some c → cuts[t']? = some c' →
    offs ≤ c.1.1 ∧ c'.2.1 + c'.2.2 ≤ stop ∧ c.1.1 + c.1.2 = c.2.1 ∧ c.2.1 + c.2.2 ≤ c'.1.1 ∧ c'.1.1 + c'.1.2 = c'.2.1 ∧
    m ≤ between elz c.2.1 (c.2.1 + c.2.2) ∧ m ≤ between elz c'.1.1 (c'.1.1+c'.1.2) ∧
    m ≤ between elz c.1.1 (c.1.1 + c.1.2) ∧ m ≤ between elz c'.2.1 (c'.2.1 + c'.2.2) := by
  induction h with
  | nil => intro t t' c c' _ h; simp at h
  | @cons offs a b r stop h0 h1 ht ih =>
    intro t t' c c' hlt hc hc'
    obtain ⟨u', rfl⟩ : ∃ u', t' = u'+1 := ⟨t'-1, by omega⟩
    rw [List.getElem?_cons_succ] at hc'
    have hst := tiles_le ht
    cases t with
    | zero =>
      simp only [List.getElem?_cons_zero, Option.some.injEq] at hc
      subst hc
      have key := tiles_width ht c' (List.mem_of_getElem? hc')
      have := tiles_mem ht c' (List.mem_of_getElem? hc')
      exact ⟨le_refl _, this.2.2, rfl, by simpa using this.1, this.2.1, h1, key.1, h0, key.2⟩
    | succ u =>
      rw [List.getElem?_cons_succ] at hc
      obtain ⟨q1, q2⟩ := ih (by omega) hc hc'
      exact ⟨by omega, q2⟩

/-- Positions `x < y` with at least `m` non-zero spans strictly between them, and at least `m` outside. -/
def Sep (elz : List Bool) (m x y : Nat) : Prop :=
  x < y ∧ m ≤ between elz (x+1) y ∧ m ≤ between elz 0 x + between elz (y+1) elz.length

/-- Two elements in different strips of the same group are separated. -/
theorem group_sep (hs : StripOk strip nel n pos) {cuts stop} (h : Tiles elz m 0 cuts stop) (hn : stop ≤ n) (hz : n = elz.length)
    {t t' : Nat} {c c'} (hlt : t < t') (hc : cuts[t]? = some c) (hc' : cuts[t']? = some c') {e e' : Int} :
    ((e ∈ strip c.1 ∧ e' ∈ strip c'.1) ∨ (e ∈ strip c.2 ∧ e' ∈ strip c'.2)) → Sep elz m (pos e) (pos e') := by
  obtain ⟨_, h2, h3, h4, h5, h6, h7, h8, h9⟩ := tiles_sep h hlt hc hc'
  rintro (⟨he, he'⟩ | ⟨he, he'⟩)
  · have p := (hs.mem c.1.1 c.1.2 e (by omega)).mp he
    have p' := (hs.mem c'.1.1 c'.1.2 e' (by omega)).mp he'
    refine ⟨by omega, h6.trans (between_mono elz (by omega) (by omega) (by omega)), ?_⟩
    exact h9.trans ((between_mono elz (x := pos e' + 1) (y := elz.length) (by omega) (by omega) (by omega)).trans (by omega))
  · have p := (hs.mem c.2.1 c.2.2 e (by omega)).mp he
    have p' := (hs.mem c'.2.1 c'.2.2 e' (by omega)).mp he'
    refine ⟨by omega, h7.trans (between_mono elz (by omega) (by omega) (by omega)), ?_⟩
    exact h8.trans ((between_mono elz (x := 0) (y := pos e) (by omega) (by omega) (by omega)).trans (by omega))

/-- The outcome of a partitioning. -/
structure CalcOk (G : Groups) (dir : StripDir) (nel : Nat) (pos : Int → Nat) (elz : List Bool) (m : Nat) : Prop where
  dir : G.stripDir = dir
  part : IsPartition G nel (fun e => 0 ≤ e ∧ e < nel ∧ elz[pos e]? = some true)
  sep : ∀ e e', Concurrent G e e' → Sep elz m (pos e) (pos e') ∨ Sep elz m (pos e') (pos e)

theorem oneGroup_all (G : Groups) (nel : Nat) : groupElms (oneGroup G nel) = (List.range nel).map Int.ofNat := by
  simp [groupElms, oneGroup]

theorem oneGroup_partition (G : Groups) (nel : Nat) : IsPartition (oneGroup G nel) nel (fun e => 0 ≤ e ∧ e < nel) := by
  constructor
  · rw [oneGroup_all]
    exact (List.nodup_range).map (fun a b h => by simpa using h)
  · intro e he
    rw [oneGroup_all, List.mem_map] at he
    obtain ⟨k, hk, rfl⟩ := he
    have := List.mem_range.mp hk
    exact ⟨by simp, by simpa using this⟩
  · rintro e ⟨h0, h1⟩
    rw [oneGroup_all, List.mem_map]
    exact ⟨e.toNat, List.mem_range.mpr (by omega), by simpa using h0⟩

theorem oneGroup_concurrent (G : Groups) (nel : Nat) (e e' : Int) : ¬ Concurrent (oneGroup G nel) e e' := by
  rintro ⟨grp, hg, t, t', hne, ⟨l, hl, _⟩, ⟨l', hl', _⟩⟩
  rcases hg with rfl | rfl
  · have h1 := (List.getElem?_eq_some_iff.mp hl).1
    have h2 := (List.getElem?_eq_some_iff.mp hl').1
    simp [oneGroup] at h1 h2
    omega
  · simp [oneGroup] at hl

theorem calcCommon_ok (dir : StripDir) {threads : Nat} (hT : 1 ≤ threads) (hs : StripOk strip nel n pos) (hz : n = elz.length)
    (cut : List Nat → List Nat → Option (List ((Nat × Nat) × (Nat × Nat))))
    (hcut : ∀ s0 s1, s0.length = s1.length → s0.sum + s1.sum = countSpans elz → cut s0 s1 = cutZero elz 0 s0 s1) (G0 : Groups)
    (h0 : G0.tg0 = []) (h1 : G0.tg1 = []) :
    ∃ G, calcCommon G0 dir threads (countSpans elz) m nel strip cut = some G ∧ CalcOk G dir nel pos elz m := by
  have hsh := shrink_spec (countSpans elz) m threads (numParts threads) (fun h => by simp [numParts, h]) hT
  unfold calcCommon
  generalize shrink (countSpans elz) m threads (numParts threads) = ts at hsh
  dsimp only
  by_cases ht : ts.1 = 1
  · rw [if_pos ht]
    refine ⟨_, rfl, rfl, ?_, fun e e' h => absurd h (oneGroup_concurrent _ _ _ _)⟩
    obtain ⟨p1, p2, p3⟩ := oneGroup_partition { G0 with stripDir := dir } nel
    exact ⟨p1, p2, fun e he => p3 e ⟨he.1, he.2.1⟩⟩
  · rw [if_neg ht]
    obtain ⟨hT2, hb, hm⟩ := hsh.resolve_left ht
    obtain ⟨s, es, hso⟩ := stripSizes_ok (els := countSpans elz) (by omega : 0 < ts.1) hb
    obtain ⟨cuts, stop, ec, hti, hlen, hst, hbt⟩ := cutZero_spec elz m s.1 s.2 0 (by rw [hso.len0, hso.len1])
      (fun x hx => hm.trans (hso.ge0 x hx)) (fun x hx => hm.trans (hso.ge1 x hx)) (by rw [List.drop_zero, hso.sum]) (by omega)
    rw [es]
    simp only [Option.bind_eq_bind, Option.bind_some, hcut s.1 s.2 (by rw [hso.len0, hso.len1]) hso.sum, ec]
    have hl : cuts.length = ts.1 := by rw [hlen, hso.len0]
    have e0 : (fillGroups G0 dir ts.1 strip cuts).tg0 = cuts.map fun c => strip c.1 := by
      simp only [fillGroups, h0]; exact pushStrips_nil _ _ (by simpa using hl)
    have e1 : (fillGroups G0 dir ts.1 strip cuts).tg1 = cuts.map fun c => strip c.2 := by
      simp only [fillGroups, h1]; exact pushStrips_nil _ _ (by simpa using hl)
    have hperm : (groupElms (fillGroups G0 dir ts.1 strip cuts)).Perm (cuts.flatMap fun c => strip c.1 ++ strip c.2) := by
      unfold groupElms; rw [e0, e1]; exact flat_perm _ _ _
    obtain ⟨hmem, hnd⟩ := flat_spec hs hti (by omega)
    refine ⟨_, rfl, rfl, ⟨hperm.nodup_iff.mpr hnd, ?_, ?_⟩, ?_⟩
    · intro e he
      have := (hmem e).mp (hperm.mem_iff.mp he)
      exact ⟨this.1, this.2.1⟩
    · rintro e ⟨q0, q1, q2⟩
      refine hperm.mem_iff.mpr ((hmem e).mpr ⟨q0, q1, by omega, ?_⟩)
      by_contra hge
      -- a non-zero span after the last strip
      have hall : between elz 0 elz.length = countSpans elz := by simp [between]
      have hp : pos e < elz.length := by have := hs.pos_lt e q0 q1; omega
      have hsplit := between_add elz (x := 0) (by omega : 0 ≤ stop) hst
      have hpos : 1 ≤ between elz stop elz.length := by
        refine le_trans ?_ (between_mono elz (x := stop) (y := elz.length) (x' := pos e) (y' := pos e + 1) (by omega) (by omega) (by omega))
        unfold between countSpans
        rw [show pos e + 1 - pos e = 1 by omega]
        have : (elz.drop (pos e)).take 1 = [true] := by
          rw [List.drop_eq_getElem_cons hp]
          have := List.getElem?_eq_some_iff.mp q2
          simp [this.2]
        rw [this]; simp
      have := hso.sum
      omega
    · rintro e e' ⟨grp, hg, t, t', hne, ⟨l, hl, he⟩, ⟨l', hl', he'⟩⟩
      have key : ∃ c c', cuts[t]? = some c ∧ cuts[t']? = some c' ∧ ((e ∈ strip c.1 ∧ e' ∈ strip c'.1) ∨ (e ∈ strip c.2 ∧ e' ∈ strip c'.2)) := by
        rcases hg with rfl | rfl
        · rw [e0, List.getElem?_map] at hl hl'
          obtain ⟨c, hc, rfl⟩ := Option.map_eq_some_iff.mp hl
          obtain ⟨c', hc', rfl⟩ := Option.map_eq_some_iff.mp hl'
          exact ⟨c, c', hc, hc', Or.inl ⟨he, he'⟩⟩
        · rw [e1, List.getElem?_map] at hl hl'
          obtain ⟨c, hc, rfl⟩ := Option.map_eq_some_iff.mp hl
          obtain ⟨c', hc', rfl⟩ := Option.map_eq_some_iff.mp hl'
          exact ⟨c, c', hc, hc', Or.inr ⟨he, he'⟩⟩
      obtain ⟨c, c', hc, hc', hcc⟩ := key
      rcases Nat.lt_or_gt_of_ne hne with hlt | hlt
      · exact Or.inl (group_sep hs hti (by omega) hz hlt hc hc' hcc)
      · exact Or.inr (group_sep hs hti (by omega) hz hlt hc' hc (hcc.imp And.symm And.symm))

end IFEM.Threads
