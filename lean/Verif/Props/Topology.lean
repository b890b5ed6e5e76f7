import Verif.Lemmas.Topology
import Verif.Lemmas.LagrangeBasis
/-!
# C37: connectivity of structured Lagrange patches
-/
namespace IFEM.Props
open IFEM.Spec IFEM.Topo IFEM.Lag IFEM.Threads

/-- **C37** (lines). A patch of `n` Lagrange line elements with `p` nodes each: node `a` of element `i` is node `(p-1) i + a` of the patch. -/
theorem C37_lines (n p : Nat) : (lagMNPC1 n p).length = n ∧
    ∀ i < n, ∃ e, (lagMNPC1 n p)[i]? = some e ∧ e.length = p ∧ ∀ a < p, e[a]? = some ((p-1)*i + a) := by
  refine ⟨by simp [lagMNPC1], fun i hi => ⟨lagElm1 p i, by simp [lagMNPC1, hi], length_lagElm1 p i, fun a ha => ?_⟩⟩
  have hl : a < (lagElm1 p i).length := by rw [length_lagElm1]; exact ha
  have h := lagElm1_get p i a ha
  rw [List.getD_eq_getElem?_getD, List.getElem?_eq_getElem hl, Option.getD_some] at h
  rw [List.getElem?_eq_getElem hl, h]

/-- **C37** (quadrilaterals). The connectivity computed for a patch of `ex x ey` Lagrange elements of degrees `d1`, `d2` lists the nodes of every cell in grid order. -/
theorem C37_quads (ex ey d1 d2 : Nat) (h1 : 0 < d1) (h2 : 0 < d2) :
    QuadMesh ex ey d1 d2 (lagMNPC2 (ex*d1+1) (ey*d2+1) (d1+1) (d2+1)) := by
  unfold lagMNPC2
  simp only [Nat.add_sub_cancel, Nat.mul_div_cancel _ h1, Nat.mul_div_cancel _ h2]
  have hl : ∀ k < ey, ((List.range ex).map fun i => lagElm2 (ex*d1+1) (d1+1) (d2+1) i k).length = ex := fun k _ => by simp
  refine ⟨by rw [flatMap_range_length _ ex _ hl, Nat.mul_comm], fun i hi j hj => ⟨lagElm2 (ex*d1+1) (d1+1) (d2+1) i j, ?_, length_lagElm2 _ _ _ _ _, fun a ha b hb => ?_⟩⟩
  · rw [show i + ex*j = j*ex + i by ring, flatMap_range_get _ ex _ hl j i hj hi]; simp [hi]
  · have := lagElm2_get (ex*d1+1) (d1+1) (d2+1) i j a b (by omega) (by omega)
    simpa only [Nat.add_sub_cancel] using this

/-- **C37** (hexahedra). The connectivity computed for a patch of `ex x ey x ez` Lagrange elements of degrees `d1`, `d2`, `d3` lists the nodes of every cell in grid order. -/
theorem C37_hexes (ex ey ez d1 d2 d3 : Nat) (h1 : 0 < d1) (h2 : 0 < d2) (h3 : 0 < d3) :
    HexMesh ex ey ez d1 d2 d3 (lagMNPC3 (ex*d1+1) (ey*d2+1) (ez*d3+1) (d1+1) (d2+1) (d3+1)) := by
  unfold lagMNPC3
  simp only [Nat.add_sub_cancel, Nat.mul_div_cancel _ h1, Nat.mul_div_cancel _ h2, Nat.mul_div_cancel _ h3]
  have hl : ∀ k, ∀ j < ey, ((List.range ex).map fun i => lagElm3 (ex*d1+1) (ey*d2+1) (d1+1) (d2+1) (d3+1) i j k).length = ex := fun k _ _ => by simp
  have hl2 : ∀ k < ez, ((List.range ey).flatMap fun j => (List.range ex).map fun i => lagElm3 (ex*d1+1) (ey*d2+1) (d1+1) (d2+1) (d3+1) i j k).length = ey*ex :=
    fun k _ => flatMap_range_length _ ex _ (hl k)
  refine ⟨by rw [flatMap_range_length _ (ey*ex) _ hl2]; ring, fun i hi j hj k hk =>
    ⟨lagElm3 (ex*d1+1) (ey*d2+1) (d1+1) (d2+1) (d3+1) i j k, ?_, length_lagElm3 _ _ _ _ _ _ _ _, fun a ha b hb c hc => ?_⟩⟩
  · rw [show i + ex*(j + ey*k) = k*(ey*ex) + (j*ex + i) by ring,
      flatMap_range_get _ (ey*ex) _ hl2 k (j*ex+i) hk (by have := lt2 hi hj; rw [Nat.mul_comm ey, Nat.add_comm, Nat.mul_comm j]; exact this),
      flatMap_range_get _ ex _ (hl k) j i hj hi]
    simp [hi]
  · have := lagElm3_get (ex*d1+1) (ey*d2+1) (d1+1) (d2+1) (d3+1) i j k a b c (by omega) (by omega) (by omega) (by omega)
    simpa only [Nat.add_sub_cancel] using this

/-! ### Any such mesh is conforming -/

theorem gridNode2_inj {nx I J I' J' : Nat} (h : I < nx) (h' : I' < nx) (e : gridNode2 nx I J = gridNode2 nx I' J') : I = I' ∧ J = J' :=
  digits h h' (by unfold gridNode2 at e; rw [Nat.mul_comm J, Nat.mul_comm J']; exact e)

theorem gridNode3_inj {nx ny I J K I' J' K' : Nat} (hI : I < nx) (hI' : I' < nx) (hJ : J < ny) (hJ' : J' < ny)
    (e : gridNode3 nx ny I J K = gridNode3 nx ny I' J' K') : I = I' ∧ J = J' ∧ K = K' := by
  obtain ⟨e1, e2⟩ := gridNode2_inj hI hI' e
  obtain ⟨e3, e4⟩ := gridNode2_inj hJ hJ' e2
  exact ⟨e1, e3, e4⟩

theorem cell_bound {i ex d a : Nat} (hi : i < ex) (ha : a ≤ d) : d*i + a < ex*d+1 := by
  have := Nat.mul_le_mul_left d (show i+1 ≤ ex by omega)
  rw [Nat.mul_add, Nat.mul_comm d ex] at this; omega

theorem cell_cover {I ex d : Nat} (hd : 0 < d) (he : 0 < ex) (hI : I < ex*d+1) : ∃ i < ex, ∃ a ≤ d, I = d*i + a := by
  by_cases h : I < ex*d
  · refine ⟨I/d, (Nat.div_lt_iff_lt_mul hd).2 h, I % d, (Nat.mod_lt _ hd).le, (Nat.div_add_mod _ _).symm⟩
  · refine ⟨ex-1, by omega, d, le_rfl, ?_⟩
    have : d*(ex-1) + d = ex*d := by
      obtain ⟨n, rfl⟩ : ∃ n, ex = n+1 := ⟨ex-1, by omega⟩
      rw [Nat.add_sub_cancel]; ring
    omega

theorem quad_mem {ex ey d1 d2 : Nat} {m : List (List Nat)} (hm : QuadMesh ex ey d1 d2 m) {i j : Nat} (hi : i < ex) (hj : j < ey) {e : List Nat}
    (he : m[i + ex*j]? = some e) (v : Nat) :
    v ∈ e ↔ ∃ a ≤ d1, ∃ b ≤ d2, v = gridNode2 (ex*d1+1) (d1*i+a) (d2*j+b) := by
  obtain ⟨e', h1, h2, h3⟩ := hm.2 i hi j hj
  obtain rfl : e = e' := Option.some.inj (he.symm.trans h1)
  constructor
  · intro hv
    obtain ⟨pos, hp, rfl⟩ := List.mem_iff_getElem.1 hv
    have hb : pos / (d1+1) < d2+1 := (Nat.div_lt_iff_lt_mul (by omega)).2 (by rw [← h2.trans (Nat.mul_comm _ _)]; exact hp)
    have ha : pos % (d1+1) < d1+1 := Nat.mod_lt _ (by omega)
    refine ⟨pos % (d1+1), by omega, pos / (d1+1), by omega, ?_⟩
    have := h3 (pos % (d1+1)) (by omega) (pos / (d1+1)) (by omega)
    rw [Nat.mod_add_div, List.getElem?_eq_getElem hp] at this
    exact Option.some.inj this
  · rintro ⟨a, ha, b, hb, rfl⟩
    exact List.mem_of_getElem? (h3 a ha b hb)

theorem hex_mem {ex ey ez d1 d2 d3 : Nat} {m : List (List Nat)} (hm : HexMesh ex ey ez d1 d2 d3 m) {i j k : Nat} (hi : i < ex) (hj : j < ey) (hk : k < ez) {e : List Nat}
    (he : m[i + ex*(j + ey*k)]? = some e) (v : Nat) :
    v ∈ e ↔ ∃ a ≤ d1, ∃ b ≤ d2, ∃ c ≤ d3, v = gridNode3 (ex*d1+1) (ey*d2+1) (d1*i+a) (d2*j+b) (d3*k+c) := by
  obtain ⟨e', h1, h2, h3⟩ := hm.2 i hi j hj k hk
  obtain rfl : e = e' := Option.some.inj (he.symm.trans h1)
  constructor
  · intro hv
    obtain ⟨pos, hp, rfl⟩ := List.mem_iff_getElem.1 hv
    have hq : pos / (d1+1) < (d2+1)*(d3+1) := (Nat.div_lt_iff_lt_mul (by omega)).2 (by rw [Nat.mul_comm _ (d1+1), ← Nat.mul_assoc, ← h2]; exact hp)
    have hc : pos / (d1+1) / (d2+1) < d3+1 := (Nat.div_lt_iff_lt_mul (by omega)).2 (by rw [Nat.mul_comm]; exact hq)
    have hb : pos / (d1+1) % (d2+1) < d2+1 := Nat.mod_lt _ (by omega)
    have ha : pos % (d1+1) < d1+1 := Nat.mod_lt _ (by omega)
    refine ⟨pos % (d1+1), by omega, pos / (d1+1) % (d2+1), by omega, pos / (d1+1) / (d2+1), by omega, ?_⟩
    have := h3 (pos % (d1+1)) (by omega) (pos / (d1+1) % (d2+1)) (by omega) (pos / (d1+1) / (d2+1)) (by omega)
    rw [Nat.mod_add_div (pos / (d1+1)), Nat.mod_add_div, List.getElem?_eq_getElem hp] at this
    exact Option.some.inj this
  · rintro ⟨a, ha, b, hb, c, hc, rfl⟩
    exact List.mem_of_getElem? (h3 a ha b hb c hc)

/-- **C37** (quadrilaterals: a valid conforming mesh). Every element addresses existing nodes only, without repetition; every node of the grid belongs to some element;
and two elements share exactly the nodes of the grid lying in both cells. -/
theorem C37_quads_conforming (ex ey d1 d2 : Nat) (hex : 0 < ex) (hey : 0 < ey) (h1 : 0 < d1) (h2 : 0 < d2) (m : List (List Nat))
    (hm : m = lagMNPC2 (ex*d1+1) (ey*d2+1) (d1+1) (d2+1)) :
    (∀ e ∈ m, e.length = (d1+1)*(d2+1) ∧ e.Nodup ∧ ∀ v ∈ e, v < (ex*d1+1)*(ey*d2+1)) ∧
    (∀ v < (ex*d1+1)*(ey*d2+1), ∃ e ∈ m, v ∈ e) ∧
    (∀ i < ex, ∀ j < ey, ∀ i' < ex, ∀ j' < ey, ∀ e e', m[i + ex*j]? = some e → m[i' + ex*j']? = some e' → ∀ v,
      (v ∈ e ∧ v ∈ e' ↔ ∃ I J, v = gridNode2 (ex*d1+1) I J ∧ (d1*i ≤ I ∧ I ≤ d1*(i+1)) ∧ (d1*i' ≤ I ∧ I ≤ d1*(i'+1)) ∧
        (d2*j ≤ J ∧ J ≤ d2*(j+1)) ∧ (d2*j' ≤ J ∧ J ≤ d2*(j'+1)))) := by
  have hq : QuadMesh ex ey d1 d2 m := hm ▸ C37_quads ex ey d1 d2 h1 h2
  refine ⟨fun e he => ?_, fun v hv => ?_, fun i hi j hj i' hi' j' hj' e e' he he' v => ?_⟩
  · obtain ⟨pos, hp, rfl⟩ := List.mem_iff_getElem.1 he
    rw [hq.1] at hp
    have hi : pos % ex < ex := Nat.mod_lt _ hex
    have hj : pos / ex < ey := (Nat.div_lt_iff_lt_mul hex).2 (by rw [Nat.mul_comm]; exact hp)
    obtain ⟨e, g1, g2, g3⟩ := hq.2 _ hi _ hj
    have gm := quad_mem hq hi hj g1
    rw [Nat.mod_add_div, List.getElem?_eq_getElem (by rw [hq.1]; exact hp)] at g1
    rw [Option.some.inj g1]
    refine ⟨g2, ?_, fun v hv => ?_⟩
    · rw [List.nodup_iff_injective_get]
      rintro ⟨x, hx⟩ ⟨y, hy⟩ hxy
      have dec : ∀ z, z < e.length → z % (d1+1) ≤ d1 ∧ z / (d1+1) ≤ d2 ∧
          e[z]? = some (gridNode2 (ex*d1+1) (d1*(pos % ex) + z % (d1+1)) (d2*(pos/ex) + z/(d1+1))) := fun z hz => by
        have hb : z / (d1+1) < d2+1 := (Nat.div_lt_iff_lt_mul (by omega)).2 (by rw [← g2.trans (Nat.mul_comm _ _)]; exact hz)
        have ha : z % (d1+1) < d1+1 := Nat.mod_lt _ (by omega)
        have := g3 (z % (d1+1)) (by omega) (z / (d1+1)) (by omega)
        rw [Nat.mod_add_div] at this
        exact ⟨by omega, by omega, this⟩
      obtain ⟨x1, x2, x3⟩ := dec x hx
      obtain ⟨y1, y2, y3⟩ := dec y hy
      rw [List.getElem?_eq_getElem hx] at x3
      rw [List.getElem?_eq_getElem hy] at y3
      simp only [List.get_eq_getElem] at hxy
      rw [hxy] at x3
      obtain ⟨q1, q2⟩ := gridNode2_inj (cell_bound hi x1) (cell_bound hi y1) (Option.some.inj (x3.symm.trans y3))
      congr 1
      rw [← Nat.mod_add_div x (d1+1), ← Nat.mod_add_div y (d1+1), show x % (d1+1) = y % (d1+1) by omega, show x / (d1+1) = y / (d1+1) by omega]
    · obtain ⟨a, ha, b, hb, rfl⟩ := (gm v).1 hv
      exact lt2 (cell_bound hi ha) (cell_bound hj hb)
  · obtain ⟨i, hi, a, ha, hI⟩ := cell_cover h1 hex (Nat.mod_lt v (show 0 < ex*d1+1 by omega))
    obtain ⟨j, hj, b, hb, hJ⟩ := cell_cover h2 hey ((Nat.div_lt_iff_lt_mul (show 0 < ex*d1+1 by omega)).2 (by rw [Nat.mul_comm]; exact hv))
    obtain ⟨e, g1, -, -⟩ := hq.2 i hi j hj
    refine ⟨e, List.mem_of_getElem? g1, (quad_mem hq hi hj g1 v).2 ⟨a, ha, b, hb, ?_⟩⟩
    rw [← hI, ← hJ]
    exact (Nat.mod_add_div _ _).symm
  · rw [quad_mem hq hi hj he, quad_mem hq hi' hj' he']
    constructor
    · rintro ⟨⟨a, ha, b, hb, rfl⟩, a', ha', b', hb', e⟩
      obtain ⟨q1, q2⟩ := gridNode2_inj (cell_bound hi ha) (cell_bound hi' ha') e
      refine ⟨_, _, rfl, ⟨by omega, by rw [Nat.mul_add]; omega⟩, ⟨by omega, by rw [Nat.mul_add]; omega⟩, ⟨by omega, by rw [Nat.mul_add]; omega⟩, by omega, by rw [Nat.mul_add]; omega⟩
    · rintro ⟨I, J, rfl, ⟨a1, a2⟩, ⟨a3, a4⟩, ⟨a5, a6⟩, a7, a8⟩
      rw [Nat.mul_add] at a2 a4 a6 a8
      exact ⟨⟨I - d1*i, by omega, J - d2*j, by omega, by congr 1 <;> omega⟩, I - d1*i', by omega, J - d2*j', by omega, by congr 1 <;> omega⟩

/-- **C37** (neighbouring quadrilaterals). An element and its right neighbour share exactly the nodes of their common edge. -/
theorem C37_quads_neighbours (ex ey d1 d2 : Nat) (h1 : 0 < d1) (h2 : 0 < d2) (m : List (List Nat))
    (hm : m = lagMNPC2 (ex*d1+1) (ey*d2+1) (d1+1) (d2+1)) (i j : Nat) (hi : i+1 < ex) (hj : j < ey) (e e' : List Nat)
    (he : m[i + ex*j]? = some e) (he' : m[i+1 + ex*j]? = some e') (v : Nat) :
    v ∈ e ∧ v ∈ e' ↔ ∃ b ≤ d2, v = gridNode2 (ex*d1+1) (d1*(i+1)) (d2*j+b) := by
  rw [(C37_quads_conforming ex ey d1 d2 (by omega) (by omega) h1 h2 m hm).2.2 i (by omega) j hj (i+1) hi j hj e e' he he' v]
  constructor
  · rintro ⟨I, J, rfl, ⟨a1, a2⟩, ⟨a3, a4⟩, ⟨a5, a6⟩, a7, a8⟩
    refine ⟨J - d2*j, by rw [Nat.mul_add] at a6; omega, ?_⟩
    congr 1
    · omega
    · omega
  · rintro ⟨b, hb, rfl⟩
    exact ⟨_, _, rfl, ⟨Nat.mul_le_mul_left _ (by omega), le_rfl⟩, ⟨le_rfl, Nat.mul_le_mul_left _ (by omega)⟩, ⟨by omega, by rw [Nat.mul_add]; omega⟩, by omega, by rw [Nat.mul_add]; omega⟩

/-- **C37** (hexahedra: a valid conforming mesh). Every element addresses existing nodes only, without repetition; every node of the grid belongs to some element;
and two elements share exactly the nodes of the grid lying in both cells. -/
theorem C37_hexes_conforming (ex ey ez d1 d2 d3 : Nat) (hex : 0 < ex) (hey : 0 < ey) (hez : 0 < ez) (h1 : 0 < d1) (h2 : 0 < d2) (h3 : 0 < d3) (m : List (List Nat))
    (hm : m = lagMNPC3 (ex*d1+1) (ey*d2+1) (ez*d3+1) (d1+1) (d2+1) (d3+1)) :
    (∀ e ∈ m, e.length = (d1+1)*(d2+1)*(d3+1) ∧ e.Nodup ∧ ∀ v ∈ e, v < (ex*d1+1)*(ey*d2+1)*(ez*d3+1)) ∧
    (∀ v < (ex*d1+1)*(ey*d2+1)*(ez*d3+1), ∃ e ∈ m, v ∈ e) ∧
    (∀ i < ex, ∀ j < ey, ∀ k < ez, ∀ i' < ex, ∀ j' < ey, ∀ k' < ez, ∀ e e', m[i + ex*(j + ey*k)]? = some e → m[i' + ex*(j' + ey*k')]? = some e' → ∀ v,
      (v ∈ e ∧ v ∈ e' ↔ ∃ I J K, v = gridNode3 (ex*d1+1) (ey*d2+1) I J K ∧ (d1*i ≤ I ∧ I ≤ d1*(i+1)) ∧ (d1*i' ≤ I ∧ I ≤ d1*(i'+1)) ∧
        (d2*j ≤ J ∧ J ≤ d2*(j+1)) ∧ (d2*j' ≤ J ∧ J ≤ d2*(j'+1)) ∧ (d3*k ≤ K ∧ K ≤ d3*(k+1)) ∧ (d3*k' ≤ K ∧ K ≤ d3*(k'+1)))) := by
  have hq : HexMesh ex ey ez d1 d2 d3 m := hm ▸ C37_hexes ex ey ez d1 d2 d3 h1 h2 h3
  refine ⟨fun e he => ?_, fun v hv => ?_, fun i hi j hj k hk i' hi' j' hj' k' hk' e e' he he' v => ?_⟩
  · obtain ⟨pos, hp, rfl⟩ := List.mem_iff_getElem.1 he
    rw [hq.1] at hp
    have hi : pos % ex < ex := Nat.mod_lt _ hex
    have hx : pos / ex < ey*ez := (Nat.div_lt_iff_lt_mul hex).2 (by rw [Nat.mul_comm, ← Nat.mul_assoc]; exact hp)
    have hj : pos / ex % ey < ey := Nat.mod_lt _ hey
    have hk : pos / ex / ey < ez := (Nat.div_lt_iff_lt_mul hey).2 (by rw [Nat.mul_comm]; exact hx)
    obtain ⟨e, g1, g2, g3⟩ := hq.2 _ hi _ hj _ hk
    have gm := hex_mem hq hi hj hk g1
    rw [Nat.mod_add_div (pos/ex), Nat.mod_add_div, List.getElem?_eq_getElem (by rw [hq.1]; exact hp)] at g1
    rw [Option.some.inj g1]
    refine ⟨g2, ?_, fun v hv => ?_⟩
    · rw [List.nodup_iff_injective_get]
      rintro ⟨x, hx⟩ ⟨y, hy⟩ hxy
      have dec : ∀ z, z < e.length → z % (d1+1) ≤ d1 ∧ z / (d1+1) % (d2+1) ≤ d2 ∧ z / (d1+1) / (d2+1) ≤ d3 ∧
          e[z]? = some (gridNode3 (ex*d1+1) (ey*d2+1) (d1*(pos % ex) + z % (d1+1)) (d2*(pos/ex % ey) + z/(d1+1) % (d2+1)) (d3*(pos/ex/ey) + z/(d1+1)/(d2+1))) := fun z hz => by
        have hq : z / (d1+1) < (d2+1)*(d3+1) := (Nat.div_lt_iff_lt_mul (by omega)).2 (by rw [Nat.mul_comm _ (d1+1), ← Nat.mul_assoc, ← g2]; exact hz)
        have hc : z / (d1+1) / (d2+1) < d3+1 := (Nat.div_lt_iff_lt_mul (by omega)).2 (by rw [Nat.mul_comm]; exact hq)
        have hb : z / (d1+1) % (d2+1) < d2+1 := Nat.mod_lt _ (by omega)
        have ha : z % (d1+1) < d1+1 := Nat.mod_lt _ (by omega)
        have := g3 (z % (d1+1)) (by omega) (z / (d1+1) % (d2+1)) (by omega) (z / (d1+1) / (d2+1)) (by omega)
        rw [Nat.mod_add_div (z / (d1+1)), Nat.mod_add_div] at this
        exact ⟨by omega, by omega, by omega, this⟩
      obtain ⟨x1, x2, x3, x4⟩ := dec x hx
      obtain ⟨y1, y2, y3, y4⟩ := dec y hy
      rw [List.getElem?_eq_getElem hx] at x4
      rw [List.getElem?_eq_getElem hy] at y4
      simp only [List.get_eq_getElem] at hxy
      rw [hxy] at x4
      obtain ⟨q1, q2, q3⟩ := gridNode3_inj (cell_bound hi x1) (cell_bound hi y1) (cell_bound hj x2) (cell_bound hj y2) (Option.some.inj (x4.symm.trans y4))
      congr 1
      rw [← Nat.mod_add_div x (d1+1), ← Nat.mod_add_div y (d1+1), ← Nat.mod_add_div (x/(d1+1)) (d2+1), ← Nat.mod_add_div (y/(d1+1)) (d2+1),
        show x % (d1+1) = y % (d1+1) by omega, show x / (d1+1) % (d2+1) = y / (d1+1) % (d2+1) by omega, show x / (d1+1) / (d2+1) = y / (d1+1) / (d2+1) by omega]
    · obtain ⟨a, ha, b, hb, c, hc, rfl⟩ := (gm v).1 hv
      rw [Nat.mul_assoc]
      exact lt2 (cell_bound hi ha) (lt2 (cell_bound hj hb) (cell_bound hk hc))
  · have hx : v / (ex*d1+1) < (ey*d2+1)*(ez*d3+1) := (Nat.div_lt_iff_lt_mul (show 0 < ex*d1+1 by omega)).2 (by rw [Nat.mul_comm, ← Nat.mul_assoc]; exact hv)
    obtain ⟨i, hi, a, ha, hI⟩ := cell_cover h1 hex (Nat.mod_lt v (show 0 < ex*d1+1 by omega))
    obtain ⟨j, hj, b, hb, hJ⟩ := cell_cover h2 hey (Nat.mod_lt (v / (ex*d1+1)) (show 0 < ey*d2+1 by omega))
    obtain ⟨k, hk, c, hc, hK⟩ := cell_cover h3 hez ((Nat.div_lt_iff_lt_mul (show 0 < ey*d2+1 by omega)).2 (by rw [Nat.mul_comm]; exact hx))
    obtain ⟨e, g1, -, -⟩ := hq.2 i hi j hj k hk
    refine ⟨e, List.mem_of_getElem? g1, (hex_mem hq hi hj hk g1 v).2 ⟨a, ha, b, hb, c, hc, ?_⟩⟩
    rw [← hI, ← hJ, ← hK]
    unfold gridNode3
    rw [Nat.mod_add_div, Nat.mod_add_div]
  · rw [hex_mem hq hi hj hk he, hex_mem hq hi' hj' hk' he']
    constructor
    · rintro ⟨⟨a, ha, b, hb, c, hc, rfl⟩, a', ha', b', hb', c', hc', e⟩
      obtain ⟨q1, q2, q3⟩ := gridNode3_inj (cell_bound hi ha) (cell_bound hi' ha') (cell_bound hj hb) (cell_bound hj' hb') e
      refine ⟨_, _, _, rfl, ⟨by omega, by rw [Nat.mul_add]; omega⟩, ⟨by omega, by rw [Nat.mul_add]; omega⟩, ⟨by omega, by rw [Nat.mul_add]; omega⟩, ⟨by omega, by rw [Nat.mul_add]; omega⟩,
        ⟨by omega, by rw [Nat.mul_add]; omega⟩, by omega, by rw [Nat.mul_add]; omega⟩
    · rintro ⟨I, J, K, rfl, ⟨a1, a2⟩, ⟨a3, a4⟩, ⟨a5, a6⟩, ⟨a7, a8⟩, ⟨a9, b1⟩, b2, b3⟩
      rw [Nat.mul_add] at a2 a4 a6 a8 b1 b3
      exact ⟨⟨I - d1*i, by omega, J - d2*j, by omega, K - d3*k, by omega, by congr 1 <;> omega⟩, I - d1*i', by omega, J - d2*j', by omega, K - d3*k', by omega, by congr 1 <;> omega⟩

/-- Concrete meshes: 2 x 2 quadratic elements, and the first of 2 x 1 x 1 trilinear ones. -/
example : (lagMNPC2 5 5 3 3)[3]? = some [12, 13, 14, 17, 18, 19, 22, 23, 24] ∧ (lagMNPC3 3 2 2 2 2 2)[1]? = some [1, 2, 4, 5, 7, 8, 10, 11] := by decide

example : (lagMNPC2 (2*2+1) (2*2+1) (2+1) (2+1)).length = 4 := (C37_quads 2 2 2 2 (by decide) (by decide)).1

end IFEM.Props
