import Verif.Lemmas.SupelParts
import Verif.Props.Matrix
/-! Transformation of matrices and vectors by a nodal matrix. -/
namespace IFEM.Supel
open IFEM.Spec IFEM.Props IFEM.Mat IFEM.Lem
variable {K : Type} [Field K]

/-- `m` has `r` rows and `c` columns and the entries `f` (counted from zero). -/
def Ent (m : Mat K) (r c : Nat) (f : Nat → Nat → K) : Prop := Rep m (Matrix.of fun (i : Fin r) (j : Fin c) => f i.1 j.1)

theorem Ent.congr {m : Mat K} {r c : Nat} {f g : Nat → Nat → K} (h : Ent m r c f) (hfg : ∀ i j, i < r → j < c → f i j = g i j) : Ent m r c g := by
  unfold Ent at *
  have : (Matrix.of fun (i : Fin r) (j : Fin c) => f i.1 j.1) = Matrix.of fun (i : Fin r) (j : Fin c) => g i.1 j.1 := by
    ext i j; exact hfg i.1 j.1 i.2 j.2
  rw [← this]; exact h

theorem Ent.get {m : Mat K} {r c : Nat} {f : Nat → Nat → K} (h : Ent m r c f) {i j : Nat} (hi : i < r) (hj : j < c) : m.get? ((i : Int) + 1) ((j : Int) + 1) = some (f i j) := rep_get h i j hi hj

theorem Ent.set {m : Mat K} {r c : Nat} {f : Nat → Nat → K} (h : Ent m r c f) {i j : Nat} (hi : i < r) (hj : j < c) (v : K) :
    ∃ m', m.setAt? (i + 1) (j + 1) v = some m' ∧ Ent m' r c fun p q => if p = i ∧ q = j then v else f p q := by
  obtain ⟨m', g1, g2⟩ := C60_set h ⟨i, hi⟩ ⟨j, hj⟩ v
  refine ⟨m', g1, ?_⟩
  unfold Ent
  have he : (Matrix.of fun (p : Fin r) (q : Fin c) => if p.1 = i ∧ q.1 = j then v else f p.1 q.1) = fun (p : Fin r) (q : Fin c) => if p = ⟨i, hi⟩ ∧ q = ⟨j, hj⟩ then v else Matrix.of (fun (p : Fin r) (q : Fin c) => f p.1 q.1) p q := by
    funext p q
    simp [Fin.ext_iff]
  rw [he]
  exact g2

theorem add_eq_set (m : Mat K) (i j : Nat) (v w : K) (h : m.get? ((i : Int) + 1) ((j : Int) + 1) = some w) : m.addAt? ((i : Int) + 1) ((j : Int) + 1) v = m.setAt? (i + 1) (j + 1) (w + v) := by
  unfold Mat.get? at h
  unfold Mat.addAt? Mat.setAt?
  have e1 : ((i : Int) + 1 - 1).toNat = i := by omega
  have e2 : ((j : Int) + 1 - 1).toNat = j := by omega
  rw [e1, e2] at h ⊢
  by_cases hc : (1 : Int) ≤ i + 1 ∧ (i : Int) + 1 ≤ m.nrow ∧ (1 : Int) ≤ j + 1 ∧ (j : Int) + 1 ≤ m.ncol
  · rw [if_pos hc] at h ⊢
    rw [h]
    have hlt : i + m.nrow * j < m.elem.length := by
      rw [List.getElem?_eq_some_iff] at h
      exact h.1
    rw [if_pos ⟨by omega, by omega, by omega, by omega, by simpa using hlt⟩]
    rfl
  · rw [if_neg hc] at h; cases h

theorem Ent.add {m : Mat K} {r c : Nat} {f : Nat → Nat → K} (h : Ent m r c f) {i j : Nat} (hi : i < r) (hj : j < c) (v : K) :
    ∃ m', m.addAt? ((i : Int) + 1) ((j : Int) + 1) v = some m' ∧ Ent m' r c fun p q => f p q + if p = i ∧ q = j then v else 0 := by
  obtain ⟨m', g1, g2⟩ := h.set hi hj (f i j + v)
  refine ⟨m', by rw [add_eq_set m i j v _ (h.get hi hj)]; exact g1, g2.congr ?_⟩
  intro p q _ _
  by_cases hc : p = i ∧ q = j
  · rw [if_pos hc, if_pos hc, hc.1, hc.2]
  · rw [if_neg hc, if_neg hc, add_zero]

/-- Additions to entries, one after the other. -/
theorem adds {X : Type} (r c : Nat) (ri ci : X → Nat) (v : X → K) (body : Mat K → X → Option (Mat K)) : ∀ (L : List X), (∀ x ∈ L, ri x < r ∧ ci x < c) →
    (∀ x ∈ L, ∀ m, body m x = m.addAt? ((ri x : Int) + 1) ((ci x : Int) + 1) (v x)) →
    ∀ (m : Mat K) (f : Nat → Nat → K), Ent m r c f → ∃ m', L.foldlM body m = some m' ∧ Ent m' r c fun p q => f p q + (L.map fun x => if p = ri x ∧ q = ci x then v x else 0).sum
  | [], _, _, m, f, h => ⟨m, rfl, h.congr (by intros; simp)⟩
  | x :: L, hr, hb, m, f, h => by
    obtain ⟨hx1, hx2⟩ := hr x List.mem_cons_self
    obtain ⟨m1, g1, g2⟩ := h.add hx1 hx2 (v x)
    obtain ⟨m2, k1, k2⟩ := adds r c ri ci v body L (fun y hy => hr y (List.mem_cons_of_mem _ hy)) (fun y hy => hb y (List.mem_cons_of_mem _ hy)) m1 _ g2
    refine ⟨m2, ?_, k2.congr ?_⟩
    · rw [List.foldlM_cons, hb x List.mem_cons_self, g1]; exact k1
    · intro p q _ _
      rw [List.map_cons, List.sum_cons]; ring

theorem sets {X : Type} (r c : Nat) (ri ci : X → Nat) (body : Mat K → X → Option (Mat K)) : ∀ (L : List X), (∀ x ∈ L, ri x < r ∧ ci x < c) →
    (∀ x ∈ L, ∀ m, body m x = m.setAt? (ri x + 1) (ci x + 1) 0) →
    ∀ (m : Mat K) (f : Nat → Nat → K), Ent m r c f → ∃ m', L.foldlM body m = some m' ∧ ∃ g, Ent m' r c g ∧ (∀ x ∈ L, g (ri x) (ci x) = 0) ∧ ∀ p q, (∀ x ∈ L, ¬ (p = ri x ∧ q = ci x)) → g p q = f p q
  | [], _, _, m, f, h => ⟨m, rfl, f, h, by simp, by intros; rfl⟩
  | x :: L, hr, hb, m, f, h => by
    obtain ⟨hx1, hx2⟩ := hr x List.mem_cons_self
    obtain ⟨m1, g1, g2⟩ := h.set hx1 hx2 0
    obtain ⟨m2, k1, g, k2, k3, k4⟩ := sets r c ri ci body L (fun y hy => hr y (List.mem_cons_of_mem _ hy)) (fun y hy => hb y (List.mem_cons_of_mem _ hy)) m1 _ g2
    refine ⟨m2, ?_, g, k2, ?_, ?_⟩
    · rw [List.foldlM_cons, hb x List.mem_cons_self, g1]; exact k1
    · intro y hy
      rcases List.mem_cons.1 hy with rfl | hy
      · by_cases hz : ∃ z ∈ L, ri y = ri z ∧ ci y = ci z
        · obtain ⟨z, hz1, hz2, hz3⟩ := hz
          rw [hz2, hz3]; exact k3 z hz1
        · rw [k4 _ _ (fun z hz1 hz2 => hz ⟨z, hz1, hz2⟩), if_pos ⟨rfl, rfl⟩]
      · exact k3 y hy
    · intro p q hpq
      rw [k4 p q (fun z hz => hpq z (List.mem_cons_of_mem _ hz)), if_neg (hpq x List.mem_cons_self)]

theorem sum_one {N : Nat} (f : Nat → K) (i : Nat) (hi : i < N) : ∑ x : Fin N, (if i = x.1 then f x.1 else 0) = f i := by
  rw [Finset.sum_eq_single ⟨i, hi⟩]
  · simp
  · intro b _ hb
    rw [if_neg]
    intro h; exact hb (Fin.ext h.symm)
  · simp

/-- One block of the transformed matrix. -/
def blk (N : Nat) (t f : Nat → Nat → K) (r c i j : Nat) : K := ∑ l : Fin N, (∑ k : Fin N, t i k * f (r + k) (c + l)) * t j l

theorem transformBlock_spec (Tn : Mat K) (N cT : Nat) (t : Nat → Nat → K) (hT : Ent Tn N cT t) (hN : N ≤ cT) (A : Mat K) (M M' : Nat) (f : Nat → Nat → K) (hA : Ent A M M' f) (r c : Nat)
    (hr : r + N ≤ M) (hc : c + N ≤ M') : ∃ A', transformBlock Tn N A r c = some A' ∧
      Ent A' M M' fun p q => if r ≤ p ∧ p < r + N ∧ c ≤ q ∧ q < c + N then blk N t f r c (p - r) (q - c) else f p q := by
  obtain ⟨B, b1, b2⟩ := adds N N (fun q : Nat × Nat × Nat => q.2.1) (fun q => q.1) (fun q => t q.2.1 q.2.2 * f (r + q.2.2) (c + q.1))
    (fun B q => do
      let t ← Tn.get? ((q.2.1 : Int) + 1) ((q.2.2 : Int) + 1)
      let a ← A.get? ((r : Int) + q.2.2 + 1) ((c : Int) + q.1 + 1)
      B.addAt? ((q.2.1 : Int) + 1) ((q.1 : Int) + 1) (t * a)) (triples N N N)
    (by intro q hq; obtain ⟨h1, h2, h3⟩ := (mem_triples _ _ _ _).1 hq; exact ⟨h2, h1⟩)
    (by
      intro q hq m
      obtain ⟨h1, h2, h3⟩ := (mem_triples _ _ _ _).1 hq
      have e2 := hA.get (i := r + q.2.2) (j := c + q.1) (by omega) (by omega)
      push_cast at e2
      rw [hT.get h2 (by omega), e2]
      rfl) (Mat.zero N N) (fun _ _ => 0) (by
        unfold Ent
        refine ⟨rfl, rfl, by simp [Mat.zero], ?_⟩
        intro i j
        simp only [Mat.zero]
        rw [List.getElem?_replicate, if_pos (rep_idx i.2 j.2)]
        rfl)
  have b3 : Ent B N N fun j i => ∑ k : Fin N, t j k * f (r + k) (c + i) := by
    apply b2.congr
    intro p q hp hq
    rw [sum_triples, zero_add]
    rw [Finset.sum_eq_single ⟨q, hq⟩, Finset.sum_eq_single ⟨p, hp⟩]
    · simp
    · intro b _ hb
      apply Finset.sum_eq_zero
      intro l _
      rw [if_neg]
      intro h; exact hb (Fin.ext h.1.symm)
    · simp
    · intro b _ hb
      apply Finset.sum_eq_zero
      intro l _
      apply Finset.sum_eq_zero
      intro l' _
      rw [if_neg]
      intro h; exact hb (Fin.ext h.2.symm)
    · simp
  obtain ⟨A1, a1, g, a2, a3, a4⟩ := sets M M' (fun q : Nat × Nat => r + q.2) (fun q => c + q.1) (fun A q => A.setAt? (r + q.2 + 1) (c + q.1 + 1) 0) (pairs N N)
    (by intro q hq; have := (mem_pairs _ _ _).1 hq; omega) (by intro q _ m; rfl) A f hA
  obtain ⟨A2, d1, d2⟩ := adds M M' (fun q : Nat × Nat × Nat => r + q.2.1) (fun q => c + q.1) (fun q => (∑ k : Fin N, t q.2.1 k * f (r + k) (c + q.2.2)) * t q.1 q.2.2)
    (fun A q => do
      let b ← B.get? ((q.2.1 : Int) + 1) ((q.2.2 : Int) + 1)
      let t ← Tn.get? ((q.1 : Int) + 1) ((q.2.2 : Int) + 1)
      A.addAt? ((r : Int) + q.2.1 + 1) ((c : Int) + q.1 + 1) (b * t)) (triples N N N)
    (by intro q hq; obtain ⟨h1, h2, h3⟩ := (mem_triples _ _ _ _).1 hq; omega)
    (by
      intro q hq m
      obtain ⟨h1, h2, h3⟩ := (mem_triples _ _ _ _).1 hq
      rw [b3.get h2 h3, hT.get h1 (by omega)]
      push_cast
      rfl) A1 g a2
  refine ⟨A2, ?_, d2.congr ?_⟩
  · unfold transformBlock
    rw [Option.bind_eq_bind, b1]
    simp only [Option.bind_some]
    rw [Option.bind_eq_bind, a1]
    exact d1
  · intro p q hp hq
    rw [sum_triples]
    by_cases hpq : r ≤ p ∧ p < r + N ∧ c ≤ q ∧ q < c + N
    · rw [if_pos hpq]
      have h0 : g p q = 0 := by
        have := a3 (q - c, p - r) ((mem_pairs _ _ _).2 ⟨by omega, by omega⟩)
        dsimp only at this
        rw [show r + (p - r) = p by omega, show c + (q - c) = q by omega] at this
        exact this
      rw [h0, zero_add, Finset.sum_eq_single ⟨q - c, by omega⟩, Finset.sum_eq_single ⟨p - r, by omega⟩]
      · unfold blk
        apply Finset.sum_congr rfl
        intro l _
        dsimp only
        rw [if_pos (by omega)]
      · intro b _ hb
        apply Finset.sum_eq_zero
        intro l _
        rw [if_neg]
        intro h; exact hb (Fin.ext (by dsimp only at h ⊢; omega))
      · simp
      · intro b _ hb
        apply Finset.sum_eq_zero
        intro l _
        apply Finset.sum_eq_zero
        intro l' _
        rw [if_neg]
        intro h; exact hb (Fin.ext (by dsimp only at h ⊢; omega))
      · simp
    · rw [if_neg hpq, a4 p q (by
        intro x hx h
        have := (mem_pairs _ _ _).1 hx
        apply hpq
        omega)]
      rw [Finset.sum_eq_zero, add_zero]
      intro x _
      apply Finset.sum_eq_zero
      intro y _
      apply Finset.sum_eq_zero
      intro z _
      rw [if_neg]
      intro h
      apply hpq
      have := x.2
      have := y.2
      dsimp only at h
      omega

theorem in_block {N b p : Nat} (hN : 0 < N) : (b * N ≤ p ∧ p < b * N + N) ↔ p / N = b := by
  rw [Nat.div_eq_iff hN]
  constructor
  · intro h; constructor <;> omega
  · intro h; omega

theorem blocks_spec (Tn : Mat K) (N cT : Nat) (t : Nat → Nat → K) (hT : Ent Tn N cT t) (hN : N ≤ cT) (h0 : 0 < N) (m : Nat) : ∀ (L : List (Nat × Nat)), L.Nodup → (∀ q ∈ L, q.1 < m ∧ q.2 < m) →
    ∀ (A : Mat K) (f : Nat → Nat → K), Ent A (m * N) (m * N) f → ∃ A', L.foldlM (fun A q => transformBlock Tn N A (q.2 * N) (q.1 * N)) A = some A' ∧
      Ent A' (m * N) (m * N) fun p q => if (q / N, p / N) ∈ L then blk N t f (p / N * N) (q / N * N) (p % N) (q % N) else f p q
  | [], _, _, A, f, h => ⟨A, rfl, h.congr (by intros; simp)⟩
  | x :: L, hn, hr, A, f, h => by
    obtain ⟨hx1, hx2⟩ := hr x List.mem_cons_self
    have hb : ∀ b, b < m → b * N + N ≤ m * N := by
      intro b hb
      calc b * N + N = (b+1) * N := by ring
        _ ≤ m * N := Nat.mul_le_mul_right _ hb
    obtain ⟨A1, g1, g2⟩ := transformBlock_spec Tn N cT t hT hN A (m*N) (m*N) f h (x.2 * N) (x.1 * N) (hb _ hx2) (hb _ hx1)
    rw [List.nodup_cons] at hn
    obtain ⟨A2, k1, k2⟩ := blocks_spec Tn N cT t hT hN h0 m L hn.2 (fun y hy => hr y (List.mem_cons_of_mem _ hy)) A1 _ g2
    refine ⟨A2, ?_, k2.congr ?_⟩
    · rw [List.foldlM_cons, g1]; exact k1
    · intro p q _ _
      have hcond : ∀ p q : Nat, (x.2 * N ≤ p ∧ p < x.2 * N + N ∧ x.1 * N ≤ q ∧ q < x.1 * N + N) ↔ (q / N, p / N) = x := by
        intro p q
        rw [Prod.ext_iff, ← in_block h0, ← in_block h0]
        constructor
        · rintro ⟨h1, h2, h3, h4⟩; exact ⟨⟨h3, h4⟩, h1, h2⟩
        · rintro ⟨⟨h3, h4⟩, h1, h2⟩; exact ⟨h1, h2, h3, h4⟩
      by_cases hx : (q / N, p / N) = x
      · have hnot : (q / N, p / N) ∉ L := by rw [hx]; exact hn.1
        rw [if_neg hnot, if_pos ((hcond p q).2 hx), if_pos (List.mem_cons.2 (.inl hx)), ← hx]
        dsimp only
        have e1 : p - p / N * N = p % N := by have := Nat.div_add_mod p N; rw [Nat.mul_comm] at this; omega
        have e2 : q - q / N * N = q % N := by have := Nat.div_add_mod q N; rw [Nat.mul_comm] at this; omega
        rw [e1, e2]
      · by_cases hL : (q / N, p / N) ∈ L
        · rw [if_pos hL, if_pos (List.mem_cons_of_mem _ hL)]
          unfold blk
          apply Finset.sum_congr rfl
          intro l _
          congr 1
          apply Finset.sum_congr rfl
          intro k _
          congr 1
          dsimp only
          rw [if_neg]
          rw [hcond]
          have d1 : (q / N * N + l.1) / N = q / N := (in_block h0).1 ⟨by omega, by have := l.2; omega⟩
          have d2 : (p / N * N + k.1) / N = p / N := (in_block h0).1 ⟨by omega, by have := k.2; omega⟩
          rw [d1, d2]
          exact hx
        · rw [if_neg hL, if_neg (fun h => hx ((hcond p q).1 h)), if_neg (fun h => (List.mem_cons.1 h).elim hx hL)]

theorem passes_mul (m N : Nat) (h0 : 0 < N) : passes (m * N) N = some m := by
  unfold passes
  rw [if_neg (by omega)]
  congr 1
  rw [Nat.div_eq_iff h0]
  constructor <;> omega

theorem transformMat_spec (Tn : Mat K) (N cT : Nat) (t : Nat → Nat → K) (hT : Ent Tn N cT t) (hN : N ≤ cT) (h0 : 0 < N) (m : Nat) (hm : 0 < m) (A : Mat K) (f : Nat → Nat → K) (h : Ent A (m * N) (m * N) f) :
    ∃ A', transformMat A Tn = some (true, A') ∧ Ent A' (m * N) (m * N) fun p q => blk N t f (p / N * N) (q / N * N) (p % N) (q % N) := by
  obtain ⟨A', g1, g2⟩ := blocks_spec Tn N cT t hT hN h0 m (pairs m m) (nodup_pairs m m) (fun q hq => (mem_pairs _ _ _).1 hq) A f h
  refine ⟨A', ?_, g2.congr ?_⟩
  · unfold transformMat
    dsimp only
    rw [h.rows, h.cols, hT.rows, hT.cols, if_neg, passes_mul m N h0]
    · dsimp only
      rw [g1]; rfl
    · have : N ≤ m * N := Nat.le_mul_of_pos_left N hm
      omega
  · intro p q hp hq
    rw [if_pos]
    rw [mem_pairs]
    exact ⟨Nat.div_lt_of_lt_mul (by rw [Nat.mul_comm]; exact hq), Nat.div_lt_of_lt_mul (by rw [Nat.mul_comm]; exact hp)⟩

/-! ## Vectors -/

/-- `V` has `M` values `v`. -/
def Vals (V : List K) (M : Nat) (v : Nat → K) : Prop := V.length = M ∧ ∀ p, p < M → vval V ((p : Int) + 1) = v p

theorem Vals.at {V : List K} {M : Nat} {v : Nat → K} (h : Vals V M v) {p : Nat} (hp : p < M) : at1? V ((p : Int) + 1) = some (v p) := by
  rw [← h.2 p hp]
  exact vval_at1? (by omega) (by rw [h.1]; omega)

theorem vadds {X : Type} (M : Nat) (ri : X → Nat) (w : X → K) (body : List K → X → Option (List K)) : ∀ (L : List X), (∀ x ∈ L, ri x < M) → (∀ x ∈ L, ∀ V, body V x = add1? V ((ri x : Int) + 1) (w x)) →
    ∀ (V : List K) (v : Nat → K), Vals V M v → ∃ V', L.foldlM body V = some V' ∧ Vals V' M fun p => v p + (L.map fun x => if p = ri x then w x else 0).sum
  | [], _, _, V, v, h => ⟨V, rfl, h.1, by intro p hp; dsimp only; simp [h.2 p hp]⟩
  | x :: L, hr, hb, V, v, h => by
    have hx := hr x List.mem_cons_self
    obtain ⟨V1, g1, g2, g3⟩ := add1?_spec V ((ri x : Int) + 1) (w x) (by omega) (by rw [h.1]; omega)
    obtain ⟨V2, k1, k2⟩ := vadds M ri w body L (fun y hy => hr y (List.mem_cons_of_mem _ hy)) (fun y hy => hb y (List.mem_cons_of_mem _ hy)) V1 (fun p => v p + if p = ri x then w x else 0)
      ⟨g2.trans h.1, by
        intro p hp
        dsimp only
        rw [g3, h.2 p hp]
        congr 1
        by_cases hp2 : p = ri x
        · rw [if_pos hp2, if_pos (by omega)]
        · rw [if_neg hp2, if_neg (by omega)]⟩
    refine ⟨V2, ?_, k2.1, ?_⟩
    · rw [List.foldlM_cons, hb x List.mem_cons_self, g1]; exact k1
    · intro p hp
      dsimp only
      rw [k2.2 p hp]
      dsimp only
      rw [List.map_cons, List.sum_cons]; ring

theorem vsets (M N k : Nat) (hk : k + N ≤ M) (WA : List K) (w : Nat → K) (hW : Vals WA N w) : ∀ (n : Nat), n ≤ N → ∀ (V : List K) (v : Nat → K), Vals V M v →
    ∃ V', (List.range n).foldlM (fun V (j : Nat) => do
      let w ← at1? WA ((j : Int) + 1)
      set1? V ((k : Int) + j + 1) w) V = some V' ∧ Vals V' M fun p => if k ≤ p ∧ p < k + n then w (p - k) else v p
  | 0, _, V, v, h => ⟨V, rfl, h.1, by intro p hp; dsimp only; rw [h.2 p hp, if_neg (by omega)]⟩
  | n+1, hn, V, v, h => by
    obtain ⟨V1, g1, g2⟩ := vsets M N k hk WA w hW n (by omega) V v h
    obtain ⟨V2, k1, k2, k3⟩ := set1?_spec V1 ((k : Int) + n + 1) (w n) (by omega) (by rw [g2.1]; omega)
    refine ⟨V2, ?_, k2.trans g2.1, ?_⟩
    · rw [List.range_succ, List.foldlM_append, g1]
      simp only [Option.bind_eq_bind, Option.bind_some, List.foldlM_cons, List.foldlM_nil]
      rw [hW.at (by omega : n < N)]
      simp only [Option.bind_some]
      rw [k1]; rfl
    · intro p hp
      dsimp only
      rw [k3]
      by_cases hpn : p = k + n
      · rw [if_pos (by omega), if_pos (by omega)]
        congr 1; omega
      · rw [if_neg (by omega), g2.2 p hp]
        dsimp only
        by_cases hin : k ≤ p ∧ p < k + n
        · rw [if_pos hin, if_pos (by omega)]
        · rw [if_neg hin, if_neg (by omega)]

/-- The nodal matrix or its transpose. -/
def tr (transpose : Bool) (t : Nat → Nat → K) : Nat → Nat → K := fun i j => if transpose then t j i else t i j

theorem transformSeg_spec (Tn : Mat K) (N cT : Nat) (t : Nat → Nat → K) (hT : Ent Tn N cT t) (hN : N ≤ cT) (tp : Bool) (V : List K) (M : Nat) (v : Nat → K) (h : Vals V M v) (k : Nat) (hk : k + N ≤ M) :
    ∃ V', transformSeg Tn N tp V k = some V' ∧ Vals V' M fun p => if k ≤ p ∧ p < k + N then ∑ j : Fin N, tr tp t (p - k) j * v (k + j) else v p := by
  obtain ⟨WA, b1, b2⟩ := vadds N (fun q : Nat × Nat => q.1) (fun q => tr tp t q.1 q.2 * v (k + q.2))
    (fun WA q => do
      let t ← if tp then Tn.get? ((q.2 : Int) + 1) ((q.1 : Int) + 1) else Tn.get? ((q.1 : Int) + 1) ((q.2 : Int) + 1)
      let v ← at1? V ((k : Int) + q.2 + 1)
      add1? WA ((q.1 : Int) + 1) (t * v)) (pairs N N) (by intro q hq; exact ((mem_pairs _ _ _).1 hq).1)
    (by
      intro q hq W
      obtain ⟨h1, h2⟩ := (mem_pairs _ _ _).1 hq
      have e := h.at (p := k + q.2) (by omega)
      push_cast at e
      dsimp only
      rw [e]
      cases tp
      · rw [if_neg (by simp), hT.get h1 (by omega)]; rfl
      · rw [if_pos rfl, hT.get h2 (by omega)]; rfl) (List.replicate N 0) (fun _ => 0) ⟨by simp, by
        intro p hp
        dsimp only
        unfold vval at1?
        rw [show (p : Int) + 1 - 1 = (p : Int) by ring, at0?_natCast, List.getElem?_replicate, if_pos hp]
        rfl⟩
  have b3 : Vals WA N fun p => ∑ j : Fin N, tr tp t p j * v (k + j) := by
    refine ⟨b2.1, ?_⟩
    intro p hp
    dsimp only
    rw [b2.2 p hp]
    dsimp only
    rw [zero_add, sum_pairs, Finset.sum_eq_single ⟨p, hp⟩]
    · simp
    · intro b _ hb
      apply Finset.sum_eq_zero
      intro l _
      rw [if_neg]
      intro hx; exact hb (Fin.ext hx.symm)
    · simp
  obtain ⟨V', c1, c2⟩ := vsets M N k hk WA _ b3 N (le_refl _) V v h
  refine ⟨V', ?_, c2⟩
  unfold transformSeg
  rw [Option.bind_eq_bind, b1]
  exact c1

theorem segs_spec (Tn : Mat K) (N cT : Nat) (t : Nat → Nat → K) (hT : Ent Tn N cT t) (hN : N ≤ cT) (h0 : 0 < N) (tp : Bool) (m : Nat) (V : List K) (v : Nat → K) (h : Vals V (m * N) v) : ∀ n, n ≤ m →
    ∃ V', (List.range n).foldlM (fun V k => transformSeg Tn N tp V (k * N)) V = some V' ∧
      Vals V' (m * N) fun p => if p / N < n then ∑ j : Fin N, tr tp t (p % N) j * v (p / N * N + j) else v p
  | 0, _ => ⟨V, rfl, h.1, by intro p hp; dsimp only; rw [h.2 p hp, if_neg (Nat.not_lt_zero _)]⟩
  | n+1, hn => by
    obtain ⟨V1, g1, g2⟩ := segs_spec Tn N cT t hT hN h0 tp m V v h n (by omega)
    have hb : n * N + N ≤ m * N := by
      calc n * N + N = (n+1) * N := by ring
        _ ≤ m * N := Nat.mul_le_mul_right _ hn
    obtain ⟨V2, k1, k2⟩ := transformSeg_spec Tn N cT t hT hN tp V1 (m*N) _ g2 (n * N) hb
    refine ⟨V2, ?_, k2.1, ?_⟩
    · rw [List.range_succ, List.foldlM_append, g1]
      simp only [Option.bind_eq_bind, Option.bind_some, List.foldlM_cons, List.foldlM_nil]
      rw [k1]; rfl
    · intro p hp
      dsimp only
      rw [k2.2 p hp]
      dsimp only
      by_cases hpn : p / N = n
      · rw [if_pos ((in_block h0).2 hpn), if_pos (by omega), ← hpn]
        have e1 : p - p / N * N = p % N := by have := Nat.div_add_mod p N; rw [Nat.mul_comm] at this; omega
        rw [e1]
        apply Finset.sum_congr rfl
        intro j _
        have d1 : (p / N * N + j.1) / N = p / N := (in_block h0).1 ⟨by omega, by have := j.2; omega⟩
        rw [d1, if_neg (by omega)]
      · rw [if_neg (fun hx => hpn ((in_block h0).1 hx))]
        by_cases hlt : p / N < n
        · rw [if_pos hlt, if_pos (by omega)]
        · rw [if_neg hlt, if_neg (by omega)]

theorem transformVec_spec (Tn : Mat K) (N cT : Nat) (t : Nat → Nat → K) (hT : Ent Tn N cT t) (hN : N ≤ cT) (h0 : 0 < N) (tp : Bool) (m : Nat) (hm : 0 < m) (V : List K) (v : Nat → K) (h : Vals V (m * N) v) :
    ∃ V', transformVec V Tn tp = some (true, V') ∧ Vals V' (m * N) fun p => ∑ j : Fin N, tr tp t (p % N) j * v (p / N * N + j) := by
  obtain ⟨V', g1, g2⟩ := segs_spec Tn N cT t hT hN h0 tp m V v h m (le_refl _)
  refine ⟨V', ?_, g2.1, ?_⟩
  · unfold transformVec
    dsimp only
    rw [h.1, hT.rows, hT.cols, if_neg, passes_mul m N h0]
    · dsimp only
      rw [g1]; rfl
    · have : N ≤ m * N := Nat.le_mul_of_pos_left N hm
      omega
  · intro p hp
    dsimp only
    rw [g2.2 p hp]
    dsimp only
    rw [if_pos]
    exact Nat.div_lt_of_lt_mul (by rw [Nat.mul_comm]; exact hp)

end IFEM.Supel
