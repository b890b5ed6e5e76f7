import Verif.Lemmas.ThreadGroups
/-!
# Lemmas on the elements of a strip
-/
namespace IFEM.Threads
open IFEM.Spec

theorem nodup_flatMap_inj {α β : Type} {l : List α} {f : α → List β} (hl : l.Nodup) (hf : ∀ a ∈ l, (f a).Nodup)
    (hd : ∀ a ∈ l, ∀ b ∈ l, ∀ x, x ∈ f a → x ∈ f b → a = b) : (l.flatMap f).Nodup := by
  induction l with
  | nil => simp
  | cons a l ih =>
    rw [List.flatMap_cons, List.nodup_append]
    have hn := List.nodup_cons.mp hl
    refine ⟨hf a (by simp), ih hn.2 (fun b hb => hf b (by simp [hb])) (fun b hb c hc => hd b (by simp [hb]) c (by simp [hc])), ?_⟩
    intro x hx y hy hxy
    subst hxy
    obtain ⟨b, hb, hxb⟩ := List.mem_flatMap.mp hy
    have := hd a (by simp) b (by simp [hb]) x hx hxb
    subst this
    exact hn.1 hb

theorem mem_block2 {start maxx maxy nel1 : Nat} {e : Int} :
    e ∈ block2 start maxx maxy nel1 ↔ ∃ i2 < maxy, ∃ i1 < maxx, e = ((start + i1 + i2*nel1 : Nat) : Int) := by
  simp only [block2, List.mem_flatMap, List.mem_range, List.mem_map, eq_comm]

theorem mem_block3 {start maxx maxy maxz nel1 nel2 : Nat} {e : Int} :
    e ∈ block3 start maxx maxy maxz nel1 nel2 ↔
      ∃ i3 < maxz, ∃ i2 < maxy, ∃ i1 < maxx, e = ((start + i1 + nel1*(i2+nel2*i3) : Nat) : Int) := by
  simp only [block3, List.mem_flatMap, List.mem_range, List.mem_map, eq_comm]

/-- Digits of a two-digit number. -/
theorem digits {n i j i' j' : Nat} (hi : i < n) (hi' : i' < n) (h : i + j*n = i' + j'*n) : i = i' ∧ j = j' := by
  have h1 : i = i' := by
    have := congrArg (· % n) h
    simpa [Nat.add_mul_mod_self_right, Nat.mod_eq_of_lt hi, Nat.mod_eq_of_lt hi'] using this
  subst h1
  have hn : 0 < n := by omega
  exact ⟨rfl, Nat.eq_of_mul_eq_mul_right hn (by omega)⟩

theorem block2_nodup {start maxx maxy nel1 : Nat} (h : maxx ≤ nel1) : (block2 start maxx maxy nel1).Nodup := by
  unfold block2
  refine nodup_flatMap_inj List.nodup_range (fun a _ => List.nodup_range.map fun x y hxy => by simpa using hxy) ?_
  intro a _ b _ x hx hx'
  obtain ⟨i, hi, rfl⟩ := List.mem_map.mp hx
  obtain ⟨i', hi', he⟩ := List.mem_map.mp hx'
  have hi := List.mem_range.mp hi
  have hi' := List.mem_range.mp hi'
  have he := Int.ofNat.inj he
  exact (digits (n := nel1) (by omega) (by omega) (show i + a*nel1 = i' + b*nel1 by omega)).2

theorem block3_nodup {start maxx maxy maxz nel1 nel2 : Nat} (h : maxx ≤ nel1) (h2 : maxy ≤ nel2) : (block3 start maxx maxy maxz nel1 nel2).Nodup := by
  unfold block3
  have key : ∀ (i1 i2 i3 j1 j2 j3 : Nat), i1 < maxx → j1 < maxx → i2 < maxy → j2 < maxy →
      start + i1 + nel1*(i2+nel2*i3) = start + j1 + nel1*(j2+nel2*j3) → i1 = j1 ∧ i2 = j2 ∧ i3 = j3 := by
    intro i1 i2 i3 j1 j2 j3 h1 h1' hh2 h2' he
    obtain ⟨q1, q2⟩ := digits (n := nel1) (i := i1) (j := i2+i3*nel2) (i' := j1) (j' := j2+j3*nel2) (by omega) (by omega)
      (by rw [Nat.mul_comm i3, Nat.mul_comm j3, Nat.mul_comm _ nel1, Nat.mul_comm _ nel1]; omega)
    obtain ⟨q3, q4⟩ := digits (n := nel2) (by omega) (by omega) q2
    exact ⟨q1, q3, q4⟩
  refine nodup_flatMap_inj List.nodup_range (fun a _ => nodup_flatMap_inj List.nodup_range
    (fun b _ => List.nodup_range.map fun x y hxy => by simpa using hxy) ?_) ?_
  · intro b hb c hc x hx hx'
    obtain ⟨i, hi, rfl⟩ := List.mem_map.mp hx
    obtain ⟨i', hi', he⟩ := List.mem_map.mp hx'
    exact (key _ _ _ _ _ _ (List.mem_range.mp hi) (List.mem_range.mp hi') (List.mem_range.mp hb) (List.mem_range.mp hc) (Int.ofNat.inj he).symm).2.1
  · intro b _ c _ x hx hx'
    obtain ⟨i2, h2, hx⟩ := List.mem_flatMap.mp hx
    obtain ⟨j2, h2', hx'⟩ := List.mem_flatMap.mp hx'
    obtain ⟨i, hi, rfl⟩ := List.mem_map.mp hx
    obtain ⟨i', hi', he⟩ := List.mem_map.mp hx'
    exact (key _ _ _ _ _ _ (List.mem_range.mp hi) (List.mem_range.mp hi') (List.mem_range.mp h2) (List.mem_range.mp h2') (Int.ofNat.inj he).symm).2.2

/-- The position of an element in a direction of a two-dimensional grid. -/
def pos2 (dir : StripDir) (n1 : Nat) (e : Int) : Nat := if dir = .U then e.toNat % n1 else e.toNat / n1

/-- The position of an element in a direction of a three-dimensional grid. -/
def pos3 (dir : StripDir) (n1 n2 : Nat) (e : Int) : Nat :=
  if dir = .U then e.toNat % n1 else if dir = .V then e.toNat / n1 % n2 else e.toNat / n1 / n2

theorem at2_pos {n1 n2 : Nat} {e : Int} {i j : Nat} (h : At2 n1 n2 e i j) : e.toNat % n1 = i ∧ e.toNat / n1 = j ∧ 0 ≤ e ∧ e < (n1*n2 : Nat) := by
  obtain ⟨hi, hj, rfl⟩ := h
  have hn : 0 < n1 := by omega
  refine ⟨by rw [Int.toNat_natCast, Nat.add_mul_mod_self_left, Nat.mod_eq_of_lt hi], ?_, by omega, ?_⟩
  · rw [Int.toNat_natCast, Nat.add_mul_div_left _ _ hn, Nat.div_eq_of_lt hi]; omega
  · have := Nat.mul_le_mul_left n1 (show j+1 ≤ n2 by omega)
    rw [Nat.mul_add] at this
    norm_cast; omega

theorem at2_exists {n1 n2 : Nat} {e : Int} (h0 : 0 ≤ e) (h1 : e < (n1*n2 : Nat)) : At2 n1 n2 e (e.toNat % n1) (e.toNat / n1) := by
  have hn : 0 < n1 := by
    rcases Nat.eq_zero_or_pos n1 with h | h
    · subst h; simp at h1; omega
    · exact h
  refine ⟨Nat.mod_lt _ hn, (Nat.div_lt_iff_lt_mul hn).mpr (by rw [Nat.mul_comm]; omega), ?_⟩
  rw [Nat.mod_add_div]; omega

theorem at3_at2 {n1 n2 n3 : Nat} {e : Int} {i j k : Nat} (h : At3 n1 n2 n3 e i j k) : At2 n1 (n2*n3) e i (j+n2*k) ∧ At2 n2 n3 ((j + n2*k : Nat) : Int) j k := by
  obtain ⟨hi, hj, hk, rfl⟩ := h
  refine ⟨⟨hi, ?_, rfl⟩, hj, hk, rfl⟩
  have := Nat.mul_le_mul_left n2 (show k+1 ≤ n3 by omega)
  rw [Nat.mul_add] at this
  omega

theorem at3_pos {n1 n2 n3 : Nat} {e : Int} {i j k : Nat} (h : At3 n1 n2 n3 e i j k) :
    e.toNat % n1 = i ∧ e.toNat / n1 % n2 = j ∧ e.toNat / n1 / n2 = k ∧ 0 ≤ e ∧ e < (n1*n2*n3 : Nat) := by
  obtain ⟨a, b⟩ := at3_at2 h
  obtain ⟨a1, a2, a3, a4⟩ := at2_pos a
  obtain ⟨b1, b2, _, _⟩ := at2_pos b
  rw [Int.toNat_natCast] at b1 b2
  rw [a2]
  exact ⟨a1, b1, b2, a3, by rw [Nat.mul_assoc]; exact a4⟩

theorem at3_exists {n1 n2 n3 : Nat} {e : Int} (h0 : 0 ≤ e) (h1 : e < (n1*n2*n3 : Nat)) :
    At3 n1 n2 n3 e (e.toNat % n1) (e.toNat / n1 % n2) (e.toNat / n1 / n2) := by
  obtain ⟨a1, a2, a3⟩ := at2_exists (n1 := n1) (n2 := n2*n3) h0 (by rw [← Nat.mul_assoc]; exact h1)
  obtain ⟨b1, b2, b3⟩ := at2_exists (n1 := n2) (n2 := n3) (e := ((e.toNat / n1 : Nat) : Int)) (Int.natCast_nonneg _) (by exact_mod_cast a2)
  rw [Int.toNat_natCast] at b1 b2 b3
  refine ⟨a1, b1, b2, ?_⟩
  have := Int.ofNat.inj b3
  rw [← this]; exact a3

theorem strip2_U (n1 n2 : Nat) : StripOk (strip2 .U n1 n2) (n1*n2) n1 (pos2 .U n1) := by
  constructor
  · intro e h0 h1; exact (at2_exists h0 h1).1
  · intro s w h; exact block2_nodup (show w ≤ n1 by omega)
  · intro s w e h
    have : strip2 .U n1 n2 (s, w) = block2 s w n2 n1 := by simp [strip2]
    rw [this, mem_block2]
    constructor
    · rintro ⟨j, hj, i, hi, rfl⟩
      have hat : At2 n1 n2 ((s + i + j*n1 : Nat) : Int) (s+i) j := ⟨by omega, hj, by rw [Nat.mul_comm n1]⟩
      obtain ⟨q1, q2, q3, q4⟩ := at2_pos hat
      refine ⟨q3, q4, ?_⟩
      show s ≤ pos2 .U n1 _ ∧ _
      rw [show pos2 .U n1 ((s + i + j*n1 : Nat) : Int) = s+i from q1]
      omega
    · rintro ⟨h0, h1, h2, h3⟩
      obtain ⟨a1, a2, a3⟩ := at2_exists h0 h1
      have h2 : s ≤ e.toNat % n1 := h2
      have h3 : e.toNat % n1 < s+w := h3
      refine ⟨_, a2, e.toNat % n1 - s, by omega, ?_⟩
      rw [show s + (e.toNat % n1 - s) = e.toNat % n1 by omega, Nat.mul_comm _ n1]
      exact a3

theorem strip2_V (n1 n2 : Nat) : StripOk (strip2 .V n1 n2) (n1*n2) n2 (pos2 .V n1) := by
  constructor
  · intro e h0 h1; exact (at2_exists h0 h1).2.1
  · intro s w h; exact block2_nodup (le_refl n1)
  · intro s w e h
    have : strip2 .V n1 n2 (s, w) = block2 (s*n1) n1 w n1 := by simp [strip2]
    rw [this, mem_block2]
    constructor
    · rintro ⟨j, hj, i, hi, rfl⟩
      have hat : At2 n1 n2 ((s*n1 + i + j*n1 : Nat) : Int) i (s+j) := ⟨by omega, by omega, by rw [Nat.mul_comm n1, Nat.add_mul]; congr 1; omega⟩
      obtain ⟨q1, q2, q3, q4⟩ := at2_pos hat
      refine ⟨q3, q4, ?_⟩
      rw [show pos2 .V n1 ((s*n1 + i + j*n1 : Nat) : Int) = s+j from q2]
      omega
    · rintro ⟨h0, h1, h2, h3⟩
      obtain ⟨a1, a2, a3⟩ := at2_exists h0 h1
      have h2 : s ≤ e.toNat / n1 := h2
      have h3 : e.toNat / n1 < s+w := h3
      refine ⟨e.toNat / n1 - s, by omega, _, a1, ?_⟩
      refine a3.trans (congrArg Nat.cast ?_)
      rw [Nat.sub_mul, Nat.mul_comm n1]
      have := Nat.mul_le_mul_right n1 h2
      omega

theorem strip3_U (n1 n2 n3 : Nat) : StripOk (strip3 .U n1 n2 n3) (n1*n2*n3) n1 (pos3 .U n1 n2) := by
  constructor
  · intro e h0 h1; exact (at3_exists h0 h1).1
  · intro s w h; exact block3_nodup (show w ≤ n1 by omega) (le_refl _)
  · intro s w e h
    have : strip3 .U n1 n2 n3 (s, w) = block3 s w n2 n3 n1 n2 := by simp [strip3]
    rw [this, mem_block3]
    constructor
    · rintro ⟨k, hk, j, hj, i, hi, rfl⟩
      have hat : At3 n1 n2 n3 ((s + i + n1*(j + n2*k) : Nat) : Int) (s+i) j k := ⟨by omega, hj, hk, rfl⟩
      obtain ⟨q1, q2, q3, q4, q5⟩ := at3_pos hat
      refine ⟨q4, q5, ?_⟩
      rw [show pos3 .U n1 n2 ((s + i + n1*(j + n2*k) : Nat) : Int) = s+i from q1]
      omega
    · rintro ⟨h0, h1, h2, h3⟩
      obtain ⟨a1, a2, a3, a4⟩ := at3_exists h0 h1
      have h2 : s ≤ e.toNat % n1 := h2
      have h3 : e.toNat % n1 < s+w := h3
      refine ⟨_, a3, _, a2, e.toNat % n1 - s, by omega, ?_⟩
      rw [show s + (e.toNat % n1 - s) = e.toNat % n1 by omega]
      exact a4

theorem strip3_V (n1 n2 n3 : Nat) : StripOk (strip3 .V n1 n2 n3) (n1*n2*n3) n2 (pos3 .V n1 n2) := by
  constructor
  · intro e h0 h1; exact (at3_exists h0 h1).2.1
  · intro s w h; exact block3_nodup (le_refl _) (show w ≤ n2 by omega)
  · intro s w e h
    have : strip3 .V n1 n2 n3 (s, w) = block3 (s*n1) n1 w n3 n1 n2 := by simp [strip3]
    rw [this, mem_block3]
    constructor
    · rintro ⟨k, hk, j, hj, i, hi, rfl⟩
      have hat : At3 n1 n2 n3 ((s*n1 + i + n1*(j + n2*k) : Nat) : Int) i (s+j) k :=
        ⟨hi, by omega, hk, congrArg Nat.cast (by ring)⟩
      obtain ⟨q1, q2, q3, q4, q5⟩ := at3_pos hat
      refine ⟨q4, q5, ?_⟩
      rw [show pos3 .V n1 n2 ((s*n1 + i + n1*(j + n2*k) : Nat) : Int) = s+j from q2]
      omega
    · rintro ⟨h0, h1, h2, h3⟩
      obtain ⟨a1, a2, a3, a4⟩ := at3_exists h0 h1
      have h2 : s ≤ e.toNat / n1 % n2 := h2
      have h3 : e.toNat / n1 % n2 < s+w := h3
      refine ⟨_, a3, e.toNat / n1 % n2 - s, by omega, _, a1, ?_⟩
      refine a4.trans (congrArg Nat.cast ?_)
      obtain ⟨d, hd⟩ : ∃ d, e.toNat / n1 % n2 = s + d := ⟨_, (by omega : _ = s + (e.toNat / n1 % n2 - s))⟩
      rw [hd, show s + d - s = d by omega]
      ring

theorem strip3_W (n1 n2 n3 : Nat) : StripOk (strip3 .W n1 n2 n3) (n1*n2*n3) n3 (pos3 .W n1 n2) := by
  constructor
  · intro e h0 h1; exact (at3_exists h0 h1).2.2.1
  · intro s w h; exact block3_nodup (le_refl _) (le_refl _)
  · intro s w e h
    have : strip3 .W n1 n2 n3 (s, w) = block3 (s*(n1*n2)) n1 n2 w n1 n2 := by simp [strip3]
    rw [this, mem_block3]
    constructor
    · rintro ⟨k, hk, j, hj, i, hi, rfl⟩
      have hat : At3 n1 n2 n3 ((s*(n1*n2) + i + n1*(j + n2*k) : Nat) : Int) i j (s+k) :=
        ⟨hi, by omega, by omega, congrArg Nat.cast (by ring)⟩
      obtain ⟨q1, q2, q3, q4, q5⟩ := at3_pos hat
      refine ⟨q4, q5, ?_⟩
      rw [show pos3 .W n1 n2 ((s*(n1*n2) + i + n1*(j + n2*k) : Nat) : Int) = s+k from q3]
      omega
    · rintro ⟨h0, h1, h2, h3⟩
      obtain ⟨a1, a2, a3, a4⟩ := at3_exists h0 h1
      have h2 : s ≤ e.toNat / n1 / n2 := h2
      have h3 : e.toNat / n1 / n2 < s+w := h3
      refine ⟨e.toNat / n1 / n2 - s, by omega, _, a2, _, a1, ?_⟩
      refine a4.trans (congrArg Nat.cast ?_)
      obtain ⟨d, hd⟩ : ∃ d, e.toNat / n1 / n2 = s + d := ⟨_, (by omega : _ = s + (e.toNat / n1 / n2 - s))⟩
      rw [hd, show s + d - s = d by omega]
      ring

theorem stripDirection2_cases (a b p : Nat) : stripDirection2 a b p = .U ∨ stripDirection2 a b p = .V := by
  unfold stripDirection2; dsimp only; split_ifs <;> simp

theorem stripDirection3_cases (a b c p : Nat) : stripDirection3 a b c p = .U ∨ stripDirection3 a b c p = .V ∨ stripDirection3 a b c p = .W := by
  unfold stripDirection3; dsimp only; split_ifs <;> simp

/-- Fresh groups: nothing assigned yet. -/
def Fresh (G : Groups) : Prop := G.tg0 = [] ∧ G.tg1 = []

/-- The strip length in a direction. -/
def spans2 (dir : StripDir) (el1 el2 : List Bool) : List Bool := if dir = .U then el1 else el2
def spans3 (dir : StripDir) (el1 el2 el3 : List Bool) : List Bool := if dir = .U then el1 else if dir = .V then el2 else el3

theorem calcGroups2z_ok {threads : Nat} (hT : 1 ≤ threads) {G0 : Groups} (hf : Fresh G0) (hd : G0.stripDir ∈ [StripDir.ANY, .U, .V]) (el1 el2 : List Bool) (p1 p2 : Nat) :
    ∃ G dir, calcGroups2z threads G0 el1 el2 p1 p2 = some G ∧ (dir = .U ∨ dir = .V) ∧ (G0.stripDir ≠ .ANY → dir = G0.stripDir) ∧
      CalcOk G dir (el1.length*el2.length) (pos2 dir el1.length) (spans2 dir el1 el2) (if dir = .U then p1 else p2) := by
  unfold calcGroups2z
  have hdir : ∀ q, (q = .U ∨ q = .V) → ((if G0.stripDir = .ANY then q else G0.stripDir) = .U ∨ (if G0.stripDir = .ANY then q else G0.stripDir) = .V) := by
    intro q hq
    simp only [List.mem_cons, List.not_mem_nil, or_false] at hd
    rcases hd with h | h | h <;> simp [h, hq]
  have hd1 := hdir _ (stripDirection2_cases (countSpans el1) (countSpans el2) (numParts threads))
  have hd2 : G0.stripDir ≠ .ANY → (if G0.stripDir = .ANY then stripDirection2 (countSpans el1) (countSpans el2) (numParts threads) else G0.stripDir) = G0.stripDir :=
    fun h => if_neg h
  generalize (if G0.stripDir = .ANY then stripDirection2 (countSpans el1) (countSpans el2) (numParts threads) else G0.stripDir) = dir at hd1 hd2
  dsimp only
  rcases hd1 with rfl | rfl
  · obtain ⟨G, e, ok⟩ := calcCommon_ok (elz := el1) (m := p1) .U hT (strip2_U el1.length el2.length) rfl (cutZero el1 0)
      (fun _ _ _ _ => rfl) G0 hf.1 hf.2
    exact ⟨G, .U, e, Or.inl rfl, hd2, ok⟩
  · obtain ⟨G, e, ok⟩ := calcCommon_ok (elz := el2) (m := p2) .V hT (strip2_V el1.length el2.length) rfl (cutZero el2 0)
      (fun _ _ _ _ => rfl) G0 hf.1 hf.2
    exact ⟨G, .V, e, Or.inr rfl, hd2, ok⟩

theorem calcGroups3z_ok {threads : Nat} (hT : 1 ≤ threads) {G0 : Groups} (hf : Fresh G0) (hd : G0.stripDir ≠ .NONE) (el1 el2 el3 : List Bool) (p1 p2 p3 : Nat) :
    ∃ G dir, calcGroups3z threads G0 el1 el2 el3 p1 p2 p3 = some G ∧ (dir = .U ∨ dir = .V ∨ dir = .W) ∧ (G0.stripDir ≠ .ANY → dir = G0.stripDir) ∧
      CalcOk G dir (el1.length*el2.length*el3.length) (pos3 dir el1.length el2.length) (spans3 dir el1 el2 el3)
        (if dir = .U then p1 else if dir = .V then p2 else p3) := by
  unfold calcGroups3z
  have hdir : ∀ q, (q = .U ∨ q = .V ∨ q = .W) → ((if G0.stripDir = .ANY then q else G0.stripDir) = .U ∨
      (if G0.stripDir = .ANY then q else G0.stripDir) = .V ∨ (if G0.stripDir = .ANY then q else G0.stripDir) = .W) := by
    intro q hq
    rcases h : G0.stripDir <;> simp_all
  have hd1 := hdir _ (stripDirection3_cases (countSpans el1) (countSpans el2) (countSpans el3) (numParts threads))
  have hd2 : G0.stripDir ≠ .ANY → (if G0.stripDir = .ANY then stripDirection3 (countSpans el1) (countSpans el2) (countSpans el3) (numParts threads) else G0.stripDir) = G0.stripDir :=
    fun h => if_neg h
  generalize (if G0.stripDir = .ANY then stripDirection3 (countSpans el1) (countSpans el2) (countSpans el3) (numParts threads) else G0.stripDir) = dir at hd1 hd2
  dsimp only
  rcases hd1 with rfl | rfl | rfl
  · obtain ⟨G, e, ok⟩ := calcCommon_ok (elz := el1) (m := p1) .U hT (strip3_U el1.length el2.length el3.length) rfl (cutZero el1 0)
      (fun _ _ _ _ => rfl) G0 hf.1 hf.2
    exact ⟨G, .U, e, Or.inl rfl, hd2, ok⟩
  · obtain ⟨G, e, ok⟩ := calcCommon_ok (elz := el2) (m := p2) .V hT (strip3_V el1.length el2.length el3.length) rfl (cutZero el2 0)
      (fun _ _ _ _ => rfl) G0 hf.1 hf.2
    exact ⟨G, .V, e, Or.inr (Or.inl rfl), hd2, ok⟩
  · obtain ⟨G, e, ok⟩ := calcCommon_ok (elz := el3) (m := p3) .W hT (strip3_W el1.length el2.length el3.length) rfl (cutZero el3 0)
      (fun _ _ _ _ => rfl) G0 hf.1 hf.2
    exact ⟨G, .W, e, Or.inr (Or.inr rfl), hd2, ok⟩

/-- The versions without zero spans are those where all spans are non-zero. -/
theorem calcGroups2_eq {threads : Nat} (hT : 1 ≤ threads) (G0 : Groups) (n1 n2 m : Nat) :
    calcGroups2 threads G0 n1 n2 m = calcGroups2z threads G0 (List.replicate n1 true) (List.replicate n2 true) m m := by
  unfold calcGroups2 calcGroups2z
  simp only [countSpans_true, List.length_replicate]
  generalize (if G0.stripDir = .ANY then stripDirection2 n1 n2 (numParts threads) else G0.stripDir) = dir
  have hp : (if dir = .U then m else m) = m := by split_ifs <;> rfl
  have hz : (if dir = .U then List.replicate n1 true else List.replicate n2 true) = List.replicate (if dir = .U then n1 else n2) true := by split_ifs <;> rfl
  rw [hp, hz]
  generalize (if dir = .U then n1 else n2) = n
  unfold calcCommon
  have hsh := shrink_spec n m threads (numParts threads) (fun h => by simp [numParts, h]) hT
  generalize shrink n m threads (numParts threads) = ts at hsh
  dsimp only
  by_cases ht : ts.1 = 1
  · rw [if_pos ht, if_pos ht]
  · rw [if_neg ht, if_neg ht]
    obtain ⟨hT2, hb, _⟩ := hsh.resolve_left ht
    obtain ⟨s, es, hso⟩ := stripSizes_ok (els := n) (by omega : 0 < ts.1) hb
    rw [es]
    simp only [Option.bind_eq_bind, Option.bind_some]
    rw [cutZero_plain n s.1 s.2 0 (by rw [hso.len0, hso.len1]) (by have := hso.sum; omega)]
    rfl

theorem calcGroups3_eq {threads : Nat} (hT : 1 ≤ threads) (G0 : Groups) (n1 n2 n3 m : Nat) :
    calcGroups3 threads G0 n1 n2 n3 m =
      calcGroups3z threads G0 (List.replicate n1 true) (List.replicate n2 true) (List.replicate n3 true) m m m := by
  unfold calcGroups3 calcGroups3z
  simp only [countSpans_true, List.length_replicate]
  generalize (if G0.stripDir = .ANY then stripDirection3 n1 n2 n3 (numParts threads) else G0.stripDir) = dir
  have hp : (if dir = .U then m else if dir = .V then m else m) = m := by split_ifs <;> rfl
  have hz : (if dir = .U then List.replicate n1 true else if dir = .V then List.replicate n2 true else List.replicate n3 true) =
      List.replicate (if dir = .U then n1 else if dir = .V then n2 else n3) true := by split_ifs <;> rfl
  rw [hp, hz]
  generalize (if dir = .U then n1 else if dir = .V then n2 else n3) = n
  unfold calcCommon
  have hsh := shrink_spec n m threads (numParts threads) (fun h => by simp [numParts, h]) hT
  generalize shrink n m threads (numParts threads) = ts at hsh
  dsimp only
  by_cases ht : ts.1 = 1
  · rw [if_pos ht, if_pos ht]
  · rw [if_neg ht, if_neg ht]
    obtain ⟨hT2, hb, _⟩ := hsh.resolve_left ht
    obtain ⟨s, es, hso⟩ := stripSizes_ok (els := n) (by omega : 0 < ts.1) hb
    rw [es]
    simp only [Option.bind_eq_bind, Option.bind_some]
    rw [cutZero_plain n s.1 s.2 0 (by rw [hso.len0, hso.len1]) (by have := hso.sum; omega)]
    rfl

end IFEM.Threads
