import Verif.Props.Quadrature
import Mathlib.Analysis.Real.Sqrt

/-!
# C64: cached basis function values, and examples
-/
namespace IFEM.Props
open IFEM.Spec IFEM.Quad IFEM.Topo MeasureTheory IFEM.Lag

/-! ### Cache -/

section
variable {K β : Type}

/-- The value of the basis functions at integration point `gp` of element `el`: elements and points are numbered with the first direction fastest. -/
def basisAt2 (basis : K → K → β) (nel1 ng1 ng2 : Nat) (gpar1 gpar2 : List K) (el gp : Nat) : Option β :=
  (gpar1[gp % ng1 + ng1*(el % nel1)]?).bind fun u => (gpar2[gp / ng1 + ng2*(el / nel1)]?).map fun v => basis u v

/-- What the cache holds at position `k` once computed. -/
def gridVal2 (basis : K → K → β) (gpar1 gpar2 : List K) (k : Nat) : Option β :=
  (gpar1[k % gpar1.length]?).bind fun u => (gpar2[k / gpar1.length]?).map fun v => basis u v

structure CacheOk (basis : K → K → β) (policy : CachePolicy) (nel1 nel2 ng1 ng2 : Nat) (gpar1 gpar2 : List K) (c : Cache2 K β) : Prop where
  pol : c.policy = policy
  e1 : c.nel1 = nel1
  g1 : c.ng1 = ng1
  g2 : c.ng2 = ng2
  p1 : c.gpar1 = gpar1
  p2 : c.gpar2 = gpar2
  len : match policy with
    | .noCache => c.values.length = 1
    | _ => c.values.length = nel1*nel2*(ng1*ng2)
  val : policy ≠ .noCache → ∀ k b, c.values[k]? = some (some b) → gridVal2 basis gpar1 gpar2 k = some b
  full : policy = .upFront → ∀ k, k < nel1*nel2*(ng1*ng2) → ∃ b, c.values[k]? = some (some b)

theorem lt_grid {a b m n : Nat} (ha : a < m) (hb : b < n) : a + m*b < n*m := by
  have := Nat.mul_le_mul_left m (show b+1 ≤ n by omega)
  rw [Nat.mul_add, Nat.mul_comm m n] at this; omega

theorem gridVal2_index (basis : K → K → β) (nel1 nel2 ng1 ng2 : Nat) (gpar1 gpar2 : List K) (h1 : gpar1.length = nel1*ng1) (hg1 : 0 < ng1) (hn1 : 0 < nel1) (el gp : Nat) :
    gridVal2 basis gpar1 gpar2 ((el / nel1*ng2*nel1 + el % nel1)*ng1 + gp / ng1*ng1*nel1 + gp % ng1) = basisAt2 basis nel1 ng1 ng2 gpar1 gpar2 el gp := by
  have hlt : gp % ng1 + ng1*(el % nel1) < nel1*ng1 := lt_grid (Nat.mod_lt _ hg1) (Nat.mod_lt _ hn1)
  have e : (el / nel1*ng2*nel1 + el % nel1)*ng1 + gp / ng1*ng1*nel1 + gp % ng1 = (gp % ng1 + ng1*(el % nel1)) + (nel1*ng1)*(gp / ng1 + ng2*(el / nel1)) := by ring
  unfold gridVal2 basisAt2
  rw [h1, e, Nat.add_mul_mod_self_left, Nat.mod_eq_of_lt hlt, Nat.add_mul_div_left _ _ (by omega), Nat.div_eq_of_lt hlt, Nat.zero_add]

theorem basisAt2_ok (basis : K → K → β) (nel1 nel2 ng1 ng2 : Nat) (gpar1 gpar2 : List K) (h1 : gpar1.length = nel1*ng1) (h2 : gpar2.length = nel2*ng2)
    (el gp : Nat) (hel : el < nel1*nel2) (hgp : gp < ng1*ng2) : ∃ b, basisAt2 basis nel1 ng1 ng2 gpar1 gpar2 el gp = some b := by
  have hn1 : 0 < nel1 := Nat.pos_of_ne_zero fun h => by rw [h, Nat.zero_mul] at hel; omega
  have hg1 : 0 < ng1 := Nat.pos_of_ne_zero fun h => by rw [h, Nat.zero_mul] at hgp; omega
  have i1 : gp % ng1 + ng1*(el % nel1) < gpar1.length := by rw [h1]; exact lt_grid (Nat.mod_lt _ hg1) (Nat.mod_lt _ hn1)
  have i2 : gp / ng1 + ng2*(el / nel1) < gpar2.length := by rw [h2]; exact lt_grid (Nat.div_lt_of_lt_mul hgp) (Nat.div_lt_of_lt_mul hel)
  unfold basisAt2
  rw [List.getElem?_eq_getElem i1, List.getElem?_eq_getElem i2]
  exact ⟨_, rfl⟩

theorem index_lt (nel1 nel2 ng1 ng2 el gp : Nat) (hel : el < nel1*nel2) (hgp : gp < ng1*ng2) :
    (el / nel1*ng2*nel1 + el % nel1)*ng1 + gp / ng1*ng1*nel1 + gp % ng1 < nel1*nel2*(ng1*ng2) := by
  have hn1 : 0 < nel1 := Nat.pos_of_ne_zero fun h => by rw [h, Nat.zero_mul] at hel; omega
  have hg1 : 0 < ng1 := Nat.pos_of_ne_zero fun h => by rw [h, Nat.zero_mul] at hgp; omega
  have i1 : gp % ng1 + ng1*(el % nel1) < nel1*ng1 := lt_grid (Nat.mod_lt _ hg1) (Nat.mod_lt _ hn1)
  have i2 : gp / ng1 + ng2*(el / nel1) < nel2*ng2 := lt_grid (Nat.div_lt_of_lt_mul hgp) (Nat.div_lt_of_lt_mul hel)
  have := lt_grid i1 i2
  calc _ = (gp % ng1 + ng1*(el % nel1)) + (nel1*ng1)*(gp / ng1 + ng2*(el / nel1)) := by ring
    _ < nel2*ng2*(nel1*ng1) := this
    _ = _ := by ring

theorem qgrid_get {γ : Type} (l2 : List K) (l1 : List K) (g : K → K → γ) (k : Nat) (u v : K) (hu : l1[k % l1.length]? = some u) (hv : l2[k / l1.length]? = some v) :
    (l2.flatMap fun v => l1.map fun u => g u v)[k]? = some (g u v) := by
  induction l2 generalizing k with
  | nil => simp at hv
  | cons a l2 ih =>
    have hpos : 0 < l1.length := by
      have := (List.getElem?_eq_some_iff.1 hu).1
      exact Nat.pos_of_ne_zero fun h => by omega
    rw [List.flatMap_cons]
    rcases Nat.lt_or_ge k l1.length with h | h
    · rw [List.getElem?_append_left (by simpa using h), List.getElem?_map]
      rw [Nat.mod_eq_of_lt h] at hu
      rw [Nat.div_eq_of_lt h] at hv
      simp only [List.getElem?_cons_zero, Option.some.injEq] at hv
      rw [hu, hv]; rfl
    · rw [List.getElem?_append_right (by simpa using h), List.length_map]
      obtain ⟨j, rfl⟩ : ∃ j, k = j + l1.length := ⟨k - l1.length, by omega⟩
      rw [Nat.add_sub_cancel]
      refine ih j (by rwa [Nat.add_mod_right] at hu) ?_
      rw [Nat.add_div_right _ hpos] at hv
      simpa using hv

theorem qgrid_length {γ : Type} (l2 : List K) (l1 : List K) (g : K → K → γ) : (l2.flatMap fun v => l1.map fun u => g u v).length = l1.length*l2.length := by
  induction l2 with
  | nil => simp
  | cons a l2 ih => rw [List.flatMap_cons, List.length_append, ih, List.length_map, List.length_cons, Nat.mul_succ, Nat.add_comm]

theorem cache_init (basis : K → K → β) (policy : CachePolicy) (nel1 nel2 ng1 ng2 : Nat) (gpar1 gpar2 : List K) (h1 : gpar1.length = nel1*ng1) (h2 : gpar2.length = nel2*ng2) :
    CacheOk basis policy nel1 nel2 ng1 ng2 gpar1 gpar2 (Cache2.init basis policy nel1 nel2 ng1 ng2 gpar1 gpar2) := by
  have hget : ∀ k, k < nel1*nel2*(ng1*ng2) → ∃ b, gridVal2 basis gpar1 gpar2 k = some b ∧ (gpar2.flatMap fun v => gpar1.map fun u => some (basis u v))[k]? = some (some b) := by
    intro k hk
    have hk' : k < gpar1.length*gpar2.length := by
      rw [h1, h2]
      calc k < _ := hk
        _ = _ := by ring
    have hpos : 0 < gpar1.length := Nat.pos_of_ne_zero fun h => by rw [h, Nat.zero_mul] at hk'; omega
    have i1 : k % gpar1.length < gpar1.length := Nat.mod_lt _ hpos
    have i2 : k / gpar1.length < gpar2.length := Nat.div_lt_of_lt_mul hk'
    refine ⟨basis gpar1[k % gpar1.length] gpar2[k / gpar1.length], ?_, ?_⟩
    · unfold gridVal2
      rw [List.getElem?_eq_getElem i1, List.getElem?_eq_getElem i2]; rfl
    · exact qgrid_get gpar2 gpar1 (fun u v => some (basis u v)) k _ _ (List.getElem?_eq_getElem i1) (List.getElem?_eq_getElem i2)
  cases policy with
  | noCache => exact ⟨rfl, rfl, rfl, rfl, rfl, rfl, rfl, fun h => absurd rfl h, fun h => by cases h⟩
  | onTheFly =>
    refine ⟨rfl, rfl, rfl, rfl, rfl, rfl, by simp [Cache2.init], fun _ k b hb => ?_, fun h => by cases h⟩
    have hb : (List.replicate (nel1*nel2*(ng1*ng2)) (none : Option β))[k]? = some (some b) := hb
    rw [List.getElem?_replicate] at hb
    split at hb <;> simp at hb
  | upFront =>
    have hl : (gpar2.flatMap fun v => gpar1.map fun u => some (basis u v)).length = nel1*nel2*(ng1*ng2) := by rw [qgrid_length, h1, h2]; ring
    refine ⟨rfl, rfl, rfl, rfl, rfl, rfl, hl, fun _ k b hb => ?_, fun _ k hk => ?_⟩
    · have hb : (gpar2.flatMap fun v => gpar1.map fun u => some (basis u v))[k]? = some (some b) := hb
      have hk := (List.getElem?_eq_some_iff.1 hb).1
      rw [hl] at hk
      obtain ⟨b', e1, e2⟩ := hget k hk
      rw [e2] at hb
      rw [e1]
      exact Option.some.inj hb
    · obtain ⟨b', e1, e2⟩ := hget k hk
      exact ⟨b', e2⟩

theorem cache_get (basis : K → K → β) (policy : CachePolicy) (nel1 nel2 ng1 ng2 : Nat) (gpar1 gpar2 : List K) (h1 : gpar1.length = nel1*ng1) (h2 : gpar2.length = nel2*ng2)
    (c : Cache2 K β) (hc : CacheOk basis policy nel1 nel2 ng1 ng2 gpar1 gpar2 c) (el gp : Nat) (hel : el < nel1*nel2) (hgp : gp < ng1*ng2) :
    ∃ c' b, c.getVals basis el gp = some (c', b) ∧ basisAt2 basis nel1 ng1 ng2 gpar1 gpar2 el gp = some b ∧ CacheOk basis policy nel1 nel2 ng1 ng2 gpar1 gpar2 c' := by
  have hn1 : 0 < nel1 := Nat.pos_of_ne_zero fun h => by rw [h, Nat.zero_mul] at hel; omega
  have hg1 : 0 < ng1 := Nat.pos_of_ne_zero fun h => by rw [h, Nat.zero_mul] at hgp; omega
  obtain ⟨b, hb⟩ := basisAt2_ok basis nel1 nel2 ng1 ng2 gpar1 gpar2 h1 h2 el gp hel hgp
  have hpt : c.calculatePt basis el gp = some b := by
    rw [← hb]
    unfold Cache2.calculatePt gpIndex2 elmIndex2 basisAt2
    rw [hc.e1, hc.g1, hc.g2, hc.p1, hc.p2]
    simp only [Option.bind_eq_bind]
    cases (gpar1[gp % ng1 + ng1*(el % nel1)]?) with
    | none => rfl
    | some u =>
      cases (gpar2[gp / ng1 + ng2*(el / nel1)]?) with
      | none => rfl
      | some v => rfl
  have hidx : c.index el gp = (el / nel1*ng2*nel1 + el % nel1)*ng1 + gp / ng1*ng1*nel1 + gp % ng1 := by
    unfold Cache2.index gpIndex2 elmIndex2
    rw [hc.e1, hc.g1, hc.g2]
  have hgrid : gridVal2 basis gpar1 gpar2 (c.index el gp) = some b := by rw [hidx, gridVal2_index basis nel1 nel2 ng1 ng2 gpar1 gpar2 h1 hg1 hn1, hb]
  have hlt : c.index el gp < nel1*nel2*(ng1*ng2) := by rw [hidx]; exact index_lt nel1 nel2 ng1 ng2 el gp hel hgp
  obtain ⟨pol, e1, g1, g2, p1, p2, len, val, full⟩ := hc
  unfold Cache2.getVals
  rw [pol]
  cases policy with
  | noCache =>
    simp only [hpt, Option.bind_eq_bind, Option.bind_some]
    have len : c.values.length = 1 := len
    rw [if_neg (by omega)]
    exact ⟨_, _, rfl, hb, ⟨rfl, e1, g1, g2, p1, p2, by simpa using len, fun h => absurd rfl h, fun h => by cases h⟩⟩
  | onTheFly =>
    have len : c.values.length = nel1*nel2*(ng1*ng2) := len
    simp only [Option.bind_eq_bind]
    obtain ⟨v, hv⟩ : ∃ v, c.values[c.index el gp]? = some v := ⟨_, List.getElem?_eq_getElem (by omega)⟩
    rw [hv]
    cases v with
    | some b' =>
      have := val (by decide) _ _ hv
      rw [hgrid] at this
      exact ⟨c, b', rfl, by rw [hb, this], ⟨pol, e1, g1, g2, p1, p2, len, val, full⟩⟩
    | none =>
      simp only [hpt, Option.bind_some]
      refine ⟨_, _, rfl, hb, ⟨rfl, e1, g1, g2, p1, p2, by simpa using len, fun _ k b' hk => ?_, fun h => by cases h⟩⟩
      have hk : (c.values.set (c.index el gp) (some b))[k]? = some (some b') := hk
      rw [List.getElem?_set] at hk
      split at hk
      · rename_i hkk
        rw [if_pos (by omega)] at hk
        rw [← hkk, hgrid]
        exact Option.some.inj hk
      · exact val (by decide) k b' hk
  | upFront =>
    simp only [Option.bind_eq_bind]
    obtain ⟨b', hb'⟩ := full rfl _ hlt
    have := val (by decide) _ _ hb'
    rw [hgrid] at this
    rw [hb']
    exact ⟨c, b', rfl, by rw [hb, this], ⟨pol, e1, g1, g2, p1, p2, len, val, full⟩⟩

/-- **C64** (cached basis functions). Whatever the cache policy, and for every sequence of requests for elements and integration points, in any order and with repetitions,
the values handed out for a surface patch are those of the basis functions at the requested integration point of the requested element. -/
theorem C64_cache (basis : K → K → β) (policy : CachePolicy) (nel1 nel2 ng1 ng2 : Nat) (gpar1 gpar2 : List K) (h1 : gpar1.length = nel1*ng1) (h2 : gpar2.length = nel2*ng2)
    (rs : List (Nat × Nat)) (hrs : ∀ r ∈ rs, r.1 < nel1*nel2 ∧ r.2 < ng1*ng2) :
    ∃ c' bs, (Cache2.init basis policy nel1 nel2 ng1 ng2 gpar1 gpar2).run basis rs = some (c', bs) ∧
      bs.map some = rs.map fun r => basisAt2 basis nel1 ng1 ng2 gpar1 gpar2 r.1 r.2 := by
  have hok := cache_init basis policy nel1 nel2 ng1 ng2 gpar1 gpar2 h1 h2
  generalize Cache2.init basis policy nel1 nel2 ng1 ng2 gpar1 gpar2 = c at hok
  induction rs generalizing c with
  | nil => exact ⟨c, [], rfl, rfl⟩
  | cons r rs ih =>
    obtain ⟨c1, b, e1, e2, h⟩ := cache_get basis policy nel1 nel2 ng1 ng2 gpar1 gpar2 h1 h2 c hok r.1 r.2 (hrs r (by simp)).1 (hrs r (by simp)).2
    obtain ⟨c2, bs, e3, e4⟩ := ih (fun r hr => hrs r (List.mem_cons_of_mem _ hr)) c1 h
    refine ⟨c2, b :: bs, ?_, by rw [List.map_cons, List.map_cons, e2, e4]⟩
    rw [Cache2.run]
    simp only [e1, e3, Option.bind_eq_bind, Option.bind_some]

/-- **C64** (cached basis functions, volumes). The values computed up front are found at the index used for looking them up. -/
theorem C64_cache_volume (basis : K → K → K → β) (nel1 nel2 nel3 ng1 ng2 ng3 : Nat) (gpar1 gpar2 gpar3 : List K) (h1 : gpar1.length = nel1*ng1) (h2 : gpar2.length = nel2*ng2)
    (e1 e2 e3 g1 g2 g3 : Nat) (he1 : e1 < nel1) (he2 : e2 < nel2) (hg1 : g1 < ng1) (hg2 : g2 < ng2) (u v w : K)
    (hu : gpar1[g1 + ng1*e1]? = some u) (hv : gpar2[g2 + ng2*e2]? = some v) (hw : gpar3[g3 + ng3*e3]? = some w) :
    (calculateAll3 basis gpar1 gpar2 gpar3)[cacheIndex3 nel1 nel2 ng1 ng2 ng3 (e1 + nel1*(e2 + nel2*e3)) (g1 + ng1*(g2 + ng2*g3))]? = some (basis u v w) := by
  obtain ⟨a1, a2, a3⟩ := idx3 nel1 nel2 e1 e2 e3 he1 he2
  obtain ⟨b1, b2, b3⟩ := idx3 ng1 ng2 g1 g2 g3 hg1 hg2
  have hidx : cacheIndex3 nel1 nel2 ng1 ng2 ng3 (e1 + nel1*(e2 + nel2*e3)) (g1 + ng1*(g2 + ng2*g3)) =
      (g1 + ng1*e1) + (nel1*ng1)*((g2 + ng2*e2) + (nel2*ng2)*(g3 + ng3*e3)) := by
    unfold cacheIndex3 elmIndex3 gpIndex3
    rw [a1, a2, a3, b1, b2, b3]
    ring
  have hlt1 : g1 + ng1*e1 < nel1*ng1 := lt_grid hg1 he1
  have hlt2 : g2 + ng2*e2 < nel2*ng2 := lt_grid hg2 he2
  unfold calculateAll3
  have key : ∀ (l3 : List K) (k : Nat) (w : K), l3[k]? = some w →
      (l3.flatMap fun w => gpar2.flatMap fun v => gpar1.map fun u => basis u v w)[(g1 + ng1*e1) + (nel1*ng1)*((g2 + ng2*e2) + (nel2*ng2)*k)]? = some (basis u v w) := by
    intro l3
    induction l3 with
    | nil => intro k w h; simp at h
    | cons a l3 ih =>
      intro k w h
      have hl : (gpar2.flatMap fun v => gpar1.map fun u => basis u v a).length = (nel1*ng1)*(nel2*ng2) := by rw [qgrid_length, h1, h2]
      rw [List.flatMap_cons]
      cases k with
      | zero =>
        simp only [List.getElem?_cons_zero, Option.some.injEq] at h
        have hb : (g1 + ng1*e1) + (nel1*ng1)*((g2 + ng2*e2) + (nel2*ng2)*0) < (nel1*ng1)*(nel2*ng2) := by
          have := lt_grid hlt1 hlt2
          rw [Nat.mul_zero, Nat.add_zero, Nat.mul_comm (nel1*ng1) (nel2*ng2)]; exact this
        rw [List.getElem?_append_left (by omega), h]
        refine qgrid_get gpar2 gpar1 (fun u v => basis u v w) _ u v ?_ ?_
        · rw [h1, Nat.add_mul_mod_self_left, Nat.mod_eq_of_lt hlt1, hu]
        · rw [h1, Nat.add_mul_div_left _ _ (by omega), Nat.div_eq_of_lt hlt1, Nat.zero_add, Nat.mul_zero, Nat.add_zero, hv]
      | succ k =>
        have e : (g1 + ng1*e1) + (nel1*ng1)*((g2 + ng2*e2) + (nel2*ng2)*(k+1)) =
            ((g1 + ng1*e1) + (nel1*ng1)*((g2 + ng2*e2) + (nel2*ng2)*k)) + (nel1*ng1)*(nel2*ng2) := by ring
        rw [List.getElem?_append_right (by omega), hl, e, Nat.add_sub_cancel]
        exact ih k w (by simpa using h)
  rw [hidx]
  exact key gpar3 _ w hw

end

/-! ### The rules of the library -/

/-- **C64** (surfaces, with the tabulated rules). -/
theorem C64_surface_tables (rd : ℚ → ℝ) (hr : Rounds rd) (ng1 ng2 : Nat) (hg1 : 1 ≤ ng1 ∧ ng1 ≤ 10) (hg2 : 1 ≤ ng2 ∧ ng2 ≤ 10)
    (t1 t2 : Nat → ℝ) (ht1 : Monotone t1) (ht2 : Monotone t2) (n1 n2 p1 p2 : Nat) (hp1 : 0 < p1) (hn1 : p1 ≤ n1) (hp2 : 0 < p2) (hn2 : p2 ≤ n2)
    (els : List Nat) (hels : els.Perm (List.range ((n1-p1+1)*(n2-p2+1)))) (f : ℝ → ℝ → ℝ) (R M : ℝ)
    (hR1 : ∀ i, p1-1 ≤ i → i ≤ n1 → |t1 i| ≤ R) (hR2 : ∀ i, p2-1 ≤ i → i ≤ n2 → |t2 i| ≤ R)
    (hf : ∀ i j, i < n1-p1+1 → j < n2-p2+1 → PolyOn2 (2*ng1) (2*ng2) R M f (t1 (p1-1+i)) (t1 (p1-1+i+1)) (t2 (p2-1+j)) (t2 (p2-1+j+1))) :
    ∃ x1 w1 x2 w2 r, getCoord ng1 = some x1 ∧ getWeight ng1 = some w1 ∧ getCoord ng2 = some x2 ∧ getWeight ng2 = some w2 ∧
      integrate2 f n1 n2 p1 p2 (knotList t1 (n1+p1)) (knotList t2 (n2+p2)) ng1 ng2 (x1.map rd) (w1.map rd) (x2.map rd) (w2.map rd) els = some r ∧
      |r - ∫ u in (t1 (p1-1))..(t1 n1), ∫ v in (t2 (p2-1))..(t2 n2), f u v| ≤
        ((1+gaussTol ng1)*(1+gaussTol ng2) - 1) * ((t1 n1 - t1 (p1-1)) * (t2 n2 - t2 (p2-1)) * M) := by
  obtain ⟨x1, w1, a1, b1, r1⟩ := C64_tables rd hr ng1 hg1.1 hg1.2
  obtain ⟨x2, w2, a2, b2, r2⟩ := C64_tables rd hr ng2 hg2.1 hg2.2
  obtain ⟨r, h1, h2⟩ := C64_surface r1 r2 (gaussTol_nonneg _) (gaussTol_nonneg _) t1 t2 ht1 ht2 n1 n2 p1 p2 hp1 hn1 hp2 hn2 els hels f R M hR1 hR2 hf
  exact ⟨x1, w1, x2, w2, r, a1, b1, a2, b2, h1, h2⟩

/-! ### Examples -/

/-- Exact conversion is an allowed rounding. -/
example : Rounds (fun q : ℚ => (q : ℝ)) := fun q => by simp

/-- A knot vector with a repeated inner knot: `0, 1, 2, 2, 3, ...`. -/
def exKnots (i : Nat) : ℝ := if i ≤ 2 then i else (i - 1 : ℕ)

theorem exKnots_mono : Monotone exKnots := by
  refine monotone_nat_of_le_succ fun i => ?_
  unfold exKnots
  rcases Nat.lt_trichotomy i 2 with h | h | h
  · rw [if_pos (by omega), if_pos (by omega)]; push_cast; linarith
  · subst h; norm_num
  · rw [if_neg (by omega), if_neg (by omega)]
    exact_mod_cast (by omega : i - 1 ≤ i + 1 - 1)

/-- The two-point rule integrates a cubic function over a patch with an empty knot span (to the accuracy of its table). -/
example : ∃ x w r, getCoord 2 = some x ∧ getWeight 2 = some w ∧
    integrate1 (fun u => u^3) 4 2 (knotList exKnots 6) 2 (x.map fun q : ℚ => (q : ℝ)) (w.map fun q : ℚ => (q : ℝ)) = some r ∧ |r - ∫ u in (1:ℝ)..3, u^3| ≤ 1/10^14 * ((3-1)*27) := by
  obtain ⟨x, w, a, b, g⟩ := C64_tables (fun q : ℚ => (q : ℝ)) (fun q => by simp) 2 (by decide) (by decide)
  have hf : ∀ e, e < 4-2+1 → PolyOn1 (2*2) 3 27 (fun u => u^3) (exKnots (2-1+e)) (exKnots (2-1+e+1)) := by
    refine fun e _ => ⟨fun k => if k = 3 then 1 else 0, fun u _ _ => ?_, ?_⟩
    · rw [Finset.sum_eq_single 3 (by intro k _ hk; simp only [if_neg hk, zero_mul]) (by simp)]; simp
    · rw [Finset.sum_eq_single 3 (by intro k _ hk; simp only [if_neg hk]; simp) (by simp)]; norm_num
  obtain ⟨r, h1, h2⟩ := C64_curve g (gaussTol_nonneg _) exKnots exKnots_mono 4 2 (by decide) (by decide) (fun u => u^3) 3 27
    (fun i h1 h2 => by interval_cases i <;> norm_num [exKnots]) hf
  refine ⟨x, w, r, a, b, h1, ?_⟩
  have e1 : exKnots 4 = 3 := by norm_num [exKnots]
  have e2 : exKnots (2-1) = 1 := by norm_num [exKnots]
  have e3 : gaussTol 2 = 1/10^14 := by unfold gaussTol; rw [if_neg (by decide)]
  rw [e1, e2, e3] at h2
  exact h2

/-- The same patch in rational arithmetic: one point per span, integrating `u`. -/
example : integrate1 (fun u : ℚ => u) 4 2 [0, 1, 2, 2, 3, 4] 1 [0] [2] = some 4 := by decide +kernel

/-- A surface of two by one elements, visited in reverse order, `u*v` over `[0,2] x [0,1]`. -/
example : integrate2 (fun u v : ℚ => u*v) 3 2 2 2 [0, 0, 1, 2, 2] [0, 0, 1, 1] 1 1 [0] [2] [0] [2] [1, 0] = some 1 := by decide +kernel

/-- Three requests to a cache filled on demand. -/
example : (((Cache2.init (fun u v : Nat => (u, v)) .onTheFly 2 1 2 2 [10, 11, 12, 13] [20, 21]).run (fun u v => (u, v)) [(1, 2), (0, 3), (1, 2)]).map fun s => s.2) =
    some [(12, 21), (11, 21), (12, 21)] := by decide

end IFEM.Props
