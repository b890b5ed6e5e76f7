import Verif.Lemmas.PatchGenConn
import Mathlib.Algebra.Order.Ring.Rat

/-!
# C79: generated multi-patch models

`createG2`, `createTopology` and `createTopologySets` of the multi-patch generators build a box from `nx x ny x nz` patches, connect them, and name their sides.  The theorems in this file
say that the patches fill the box, and that the connections are exactly the coinciding sides (and, in periodic directions, the opposite sides of the box).
-/
namespace IFEM.PatchGen
open IFEM.PatchGen.Spec
variable {K : Type} [Field K] [LinearOrder K] [IsStrictOrderedRing K]

omit [LinearOrder K] [IsStrictOrderedRing K] in
theorem topology_of {g : Gen K} {s : Sim} {dim : Nat} {geo : List (List (Pt K))} {l : List Act} (hd : 1 ≤ dim) (hr : Ready s geo)
    (hnd : l.Nodup) (hchk : ∀ chk c, Act.join chk c ∈ l → chk = decide (c.midx % 2 = 0))
    (hcon : ∀ c, (∃ chk, Act.join chk c ∈ l) ↔ Connection g dim geo c)
    (hne : ∀ c, Connection g dim geo c → c.master ≠ c.slave)
    (hclo : ∀ p d, Act.close p d ∈ l ↔ Closed g dim geo p d)
    (hloc : ∀ p d, Closed g dim geo p d → localIndex s p > 0) :
    ∃ st, runActs dim s l = .ok st ∧ st.interfaces.Nodup ∧ st.ghosts.Nodup ∧ st.closed.Nodup ∧
      (∀ c, c ∈ st.interfaces ↔ Connection g dim geo c ∧ localIndex s c.master > 0 ∧ localIndex s c.slave > 0) ∧
      (∀ c, c ∈ st.ghosts ↔ Connection g dim geo c ∧ ¬ (localIndex s c.master > 0 ∧ localIndex s c.slave > 0)) ∧
      (∀ p d, (p, d) ∈ st.closed ↔ Closed g dim geo p d) := by
  have hf : ∀ a ∈ l, Fine dim s a := by
    intro a ha
    cases a with
    | close p d => exact hloc p d ((hclo p d).1 ha)
    | join chk c =>
      have hc := (hcon c).1 ⟨chk, ha⟩
      have hn := hne c hc
      have hchk' := hchk chk c ha
      obtain ⟨h1, h2, h3, h4, h5, h6, h7, h8, h9⟩ := hc
      have hb : 1 ≤ c.master ∧ 1 ≤ c.slave ∧ c.master ≤ geo.length ∧ c.slave ≤ geo.length := by
        rcases h9 with ⟨-, -, a1, a2, P, Q, e1, e2, -⟩ | ⟨d, -, -, -, -, -, a1, a2, P, Q, e1, e2, -⟩
        all_goals
          have b1 := (List.getElem?_eq_some_iff.1 e1).1
          have b2 := (List.getElem?_eq_some_iff.1 e2).1
          omega
      have hdim : c.dim + 1 = dim := by clear h9; omega
      refine ⟨hn, hb.1, by rw [hr.2.1]; exact hb.2.2.1, hb.2.1, by rw [hr.2.1]; exact hb.2.2.2, h1, hdim, fun _ _ => hr.2.2 c chk fun ht => ?_⟩
      rcases h9 with ⟨-, h⟩ | ⟨d, -, -, -, e, -⟩
      · exact h
      · subst ht
        have he := of_decide_eq_true hchk'.symm
        rw [e] at he
        omega
  refine ⟨_, run_acts hr.1 hf, (nodup_joins hnd hchk).filter _, (nodup_joins hnd hchk).filter _, nodup_closes hnd, ?_, ?_, ?_⟩
  · intro c
    rw [List.mem_filter, mem_joins, hcon]
    simp [here]
  · intro c
    rw [List.mem_filter, mem_joins, hcon]
    refine and_congr_right fun _ => ?_
    unfold here
    rw [Bool.not_eq_true', decide_eq_false_iff_not]
  · intro p d
    rw [mem_closes, hclo]

theorem distinct_3D {g : Gen K} (hx : 1 ≤ g.nx) (hy : 1 ≤ g.ny) (hz : 1 ≤ g.nz) (hLx : g.Lx*g.scale ≠ 0) (hLy : g.Ly*g.scale ≠ 0) (hLz : g.Lz*g.scale ≠ 0) (c : Iface)
    (h : Connection g 3 (g2_3D id g) c) : c.master ≠ c.slave := by
  obtain ⟨chk, h⟩ := (conn_3D hx hy hz hLx hLy hLz c).2 h
  intro he
  rcases mem_3D.1 h with ⟨i, j, k, hi, hj, hk, e⟩ | ⟨i, j, k, hi, hj, hk, e⟩ | ⟨i, j, k, hi, hj, hk, e⟩ | ⟨j, k, -, -, -, -, e⟩ | ⟨j, k, hp, hn, hj, hk, e⟩ |
      ⟨i, k, -, -, -, -, e⟩ | ⟨i, k, hp, hn, hi, hk, e⟩ | ⟨i, j, -, -, -, -, e⟩ | ⟨i, j, hp, hn, hi, hj, e⟩ <;> cases e
  · have := ijk_inj (by omega) hi hj hj he; omega
  · have := ijk_inj hi hi (by omega) hj he; omega
  · have := ijk_inj hi hi hj hj he; omega
  · have := ijk_inj hx (by omega) hj hj he; omega
  · have := ijk_inj hi hi hy (by omega) he; omega
  · have := ijk_inj hi hi hj hj he; omega

theorem distinct_2D {g : Gen K} (hx : 1 ≤ g.nx) (hy : 1 ≤ g.ny) (hLx : g.Lx*g.scale ≠ 0) (hLy : g.Ly*g.scale ≠ 0) (c : Iface)
    (h : Connection g 2 (g2_2D id g) c) : c.master ≠ c.slave := by
  obtain ⟨chk, h⟩ := (conn_2D hx hy hLx hLy c).2 h
  intro he
  rcases mem_2D.1 h with ⟨i, j, hi, hj, e⟩ | ⟨i, j, hi, hj, e⟩ | ⟨j, -, -, -, e⟩ | ⟨j, hp, hn, hj, e⟩ | ⟨i, -, -, -, e⟩ | ⟨i, hp, hn, hi, e⟩ <;> cases e
  · have := ijk_inj (by omega) hi hj hj he; omega
  · have := ijk_inj hi hi (by omega) hj he; omega
  · have := ijk_inj hx (by omega) hj hj he; omega
  · have := ijk_inj hi hi hy (by omega) he; omega

theorem distinct_1D {g : Gen K} (hx : 1 ≤ g.nx) (hLx : g.Lx*g.scale ≠ 0) (c : Iface)
    (h : Connection g 1 (g2_1D id g) c) : c.master ≠ c.slave := by
  obtain ⟨chk, h⟩ := (conn_1D hx hLx c).2 h
  intro he
  rcases mem_1D.1 h with ⟨i, hi, e⟩ | ⟨-, -, e⟩ | ⟨hp, hn, e⟩ <;> cases e
  · simp [face] at he
  · simp only [face] at he; omega

omit [LinearOrder K] [IsStrictOrderedRing K] in
theorem closed_3D {g : Gen K} (hx : 1 ≤ g.nx) (hy : 1 ≤ g.ny) (hz : 1 ≤ g.nz) (p d : Nat) : Act.close p d ∈ acts3D g ↔ Closed g 3 (g2_3D id g) p d := by
  unfold Closed
  rw [len_3D id g hx hy hz]
  constructor
  · intro h
    rcases mem_3D.1 h with ⟨i, j, k, -, -, -, e⟩ | ⟨i, j, k, -, -, -, e⟩ | ⟨i, j, k, -, -, -, e⟩ | ⟨j, k, hp, hn, hj, hk, e⟩ | ⟨j, k, -, -, -, -, e⟩ |
      ⟨i, k, hp, hn, hi, hk, e⟩ | ⟨i, k, -, -, -, -, e⟩ | ⟨i, j, hp, hn, hi, hj, e⟩ | ⟨i, j, -, -, -, -, e⟩ <;> cases e
    · exact ⟨by omega, by omega, hp, le_antisymm hn hx, ijk_range hx hj hk⟩
    · exact ⟨by omega, by omega, hp, le_antisymm hn hy, ijk_range hi hy hk⟩
    · exact ⟨by omega, by omega, hp, le_antisymm hn hz, ijk_range hi hj hz⟩
  · rintro ⟨h1, h2, hp, hn, h3, h4⟩
    obtain ⟨i, j, k, hi, hj, hk, rfl⟩ := ijk_surj h3 h4
    rw [mem_3D]
    interval_cases d
    · have hn : g.nx = 1 := hn
      have : i = 0 := by omega
      subst this
      exact .inr (.inr (.inr (.inl ⟨_, _, hp, le_of_eq hn, hj, hk, rfl⟩)))
    · have hn : g.ny = 1 := hn
      have : j = 0 := by omega
      subst this
      exact .inr (.inr (.inr (.inr (.inr (.inl ⟨_, _, hp, le_of_eq hn, hi, hk, rfl⟩)))))
    · have hn : g.nz = 1 := hn
      have : k = 0 := by omega
      subst this
      exact .inr (.inr (.inr (.inr (.inr (.inr (.inr (.inl ⟨_, _, hp, le_of_eq hn, hi, hj, rfl⟩)))))))

omit [LinearOrder K] [IsStrictOrderedRing K] in
theorem closed_2D {g : Gen K} (hx : 1 ≤ g.nx) (hy : 1 ≤ g.ny) (p d : Nat) : Act.close p d ∈ acts2D g ↔ Closed g 2 (g2_2D id g) p d := by
  unfold Closed
  rw [len_2D id g hx hy]
  have rg : ∀ {i j}, i < g.nx → j < g.ny → 1 ≤ ijk g.nx g.ny i j 0 ∧ ijk g.nx g.ny i j 0 ≤ g.nx*g.ny := fun hi hj => by simpa using ijk_range hi hj (by omega : 0 < 1)
  constructor
  · intro h
    rcases mem_2D.1 h with ⟨i, j, -, -, e⟩ | ⟨i, j, -, -, e⟩ | ⟨j, hp, hn, hj, e⟩ | ⟨j, -, -, -, e⟩ | ⟨i, hp, hn, hi, e⟩ | ⟨i, -, -, -, e⟩ <;> cases e
    · exact ⟨by omega, by omega, hp, le_antisymm hn hx, rg hx hj⟩
    · exact ⟨by omega, by omega, hp, le_antisymm hn hy, rg hi hy⟩
  · rintro ⟨h1, h2, hp, hn, h3, h4⟩
    obtain ⟨i, j, k, hi, hj, hk, rfl⟩ := ijk_surj (nx := g.nx) (ny := g.ny) (nz := 1) h3 (by omega)
    have : k = 0 := by omega
    subst this
    rw [mem_2D]
    interval_cases d
    · have hn : g.nx = 1 := hn
      have : i = 0 := by omega
      subst this
      exact .inr (.inr (.inl ⟨_, hp, le_of_eq hn, hj, rfl⟩))
    · have hn : g.ny = 1 := hn
      have : j = 0 := by omega
      subst this
      exact .inr (.inr (.inr (.inr (.inl ⟨_, hp, le_of_eq hn, hi, rfl⟩))))

omit [LinearOrder K] [IsStrictOrderedRing K] in
theorem closed_1D {g : Gen K} (hx : 1 ≤ g.nx) (p d : Nat) : Act.close p d ∈ acts1D g ↔ Closed g 1 (g2_1D id g) p d := by
  unfold Closed
  rw [len_1D id g hx]
  constructor
  · intro h
    rcases mem_1D.1 h with ⟨i, -, e⟩ | ⟨hp, hn, e⟩ | ⟨-, -, e⟩ <;> cases e
    exact ⟨by omega, by omega, hp, le_antisymm hn hx, by omega, hx⟩
  · rintro ⟨h1, h2, hp, hn, h3, h4⟩
    have : d = 1 := by omega
    subst this
    have hn : g.nx = 1 := hn
    have : p = 1 := by omega
    subst this
    exact mem_1D.2 (.inr (.inl ⟨hp, le_of_eq hn, rfl⟩))

/-- A volume model: the setup succeeds, and the connections made are exactly those of the specification, each one once: those between two patches of the process are made there, the
others are noted as connections across processes. -/
theorem C79_volume {g : Gen K} {s : Sim} (hx : 1 ≤ g.nx) (hy : 1 ≤ g.ny) (hz : 1 ≤ g.nz) (hLx : g.Lx*g.scale ≠ 0) (hLy : g.Ly*g.scale ≠ 0) (hLz : g.Lz*g.scale ≠ 0)
    (hr : Ready s (g2_3D id g)) (hloc : ∀ p d, Closed g 3 (g2_3D id g) p d → localIndex s p > 0) :
    ∃ st, createTopology3D g s = .ok st ∧ st.interfaces.Nodup ∧ st.ghosts.Nodup ∧ st.closed.Nodup ∧
      (∀ c, c ∈ st.interfaces ↔ Connection g 3 (g2_3D id g) c ∧ localIndex s c.master > 0 ∧ localIndex s c.slave > 0) ∧
      (∀ c, c ∈ st.ghosts ↔ Connection g 3 (g2_3D id g) c ∧ ¬ (localIndex s c.master > 0 ∧ localIndex s c.slave > 0)) ∧
      (∀ p d, (p, d) ∈ st.closed ↔ Closed g 3 (g2_3D id g) p d) :=
  topology_of (by omega) hr (nodup_3D g hx hy hz) (fun _ _ => chk_3D) (conn_3D hx hy hz hLx hLy hLz) (distinct_3D hx hy hz hLx hLy hLz) (closed_3D hx hy hz) hloc

/-- A surface model. -/
theorem C79_surface {g : Gen K} {s : Sim} (hx : 1 ≤ g.nx) (hy : 1 ≤ g.ny) (hLx : g.Lx*g.scale ≠ 0) (hLy : g.Ly*g.scale ≠ 0)
    (hr : Ready s (g2_2D id g)) (hloc : ∀ p d, Closed g 2 (g2_2D id g) p d → localIndex s p > 0) :
    ∃ st, createTopology2D g s = .ok st ∧ st.interfaces.Nodup ∧ st.ghosts.Nodup ∧ st.closed.Nodup ∧
      (∀ c, c ∈ st.interfaces ↔ Connection g 2 (g2_2D id g) c ∧ localIndex s c.master > 0 ∧ localIndex s c.slave > 0) ∧
      (∀ c, c ∈ st.ghosts ↔ Connection g 2 (g2_2D id g) c ∧ ¬ (localIndex s c.master > 0 ∧ localIndex s c.slave > 0)) ∧
      (∀ p d, (p, d) ∈ st.closed ↔ Closed g 2 (g2_2D id g) p d) :=
  topology_of (by omega) hr (nodup_2D g hx hy) (fun _ _ => chk_2D) (conn_2D hx hy hLx hLy) (distinct_2D hx hy hLx hLy) (closed_2D hx hy) hloc

/-- A curve model. -/
theorem C79_curve {g : Gen K} {s : Sim} (hx : 1 ≤ g.nx) (hLx : g.Lx*g.scale ≠ 0)
    (hr : Ready s (g2_1D id g)) (hloc : ∀ p d, Closed g 1 (g2_1D id g) p d → localIndex s p > 0) :
    ∃ st, createTopology1D g s = .ok st ∧ st.interfaces.Nodup ∧ st.ghosts.Nodup ∧ st.closed.Nodup ∧
      (∀ c, c ∈ st.interfaces ↔ Connection g 1 (g2_1D id g) c ∧ localIndex s c.master > 0 ∧ localIndex s c.slave > 0) ∧
      (∀ c, c ∈ st.ghosts ↔ Connection g 1 (g2_1D id g) c ∧ ¬ (localIndex s c.master > 0 ∧ localIndex s c.slave > 0)) ∧
      (∀ p d, (p, d) ∈ st.closed ↔ Closed g 1 (g2_1D id g) p d) :=
  topology_of (by omega) hr (nodup_1D g) (fun _ _ => chk_1D) (conn_1D hx hLx) (distinct_1D hx hLx) (closed_1D hx) hloc

/-- On a serial run every patch is there. -/
theorem C79_serial {s : Sim} {p : Nat} (h1 : 1 ≤ p) (h2 : p ≤ s.nGl) (hs : s.myPatches = [] ∨ s.nProc = 1) : localIndex s p = p := by
  unfold localIndex
  rw [if_neg (by omega), if_pos hs]

/-- A 2 x 2 x 1 model, periodic in `x` and `z`, of the size 4 x 2 x 3 at (1, 0, 0). -/
def boxDemo : Gen Rat := { nx := 2, ny := 2, nz := 1, perX := true, perZ := true, scale := 2, Lx := 2, Ly := 1, Lz := 3/2, X0 := (1, 0, 0) }

/-- A serial simulator with the geometry of the demo, which joins exactly what it may. -/
noncomputable def simDemo : Sim :=
  { nGl := 4, myPatches := [], nProc := 1, fem := true, joins := fun c chk => @decide (chk = true → Coincide (g2_3D id boxDemo) c.master c.midx c.slave c.sidx) (Classical.propDecidable _) }

example : Ready simDemo (g2_3D id boxDemo) ∧ (∀ p d, Closed boxDemo 3 (g2_3D id boxDemo) p d → localIndex simDemo p > 0) ∧
    boxDemo.Lx*boxDemo.scale ≠ 0 ∧ boxDemo.Ly*boxDemo.scale ≠ 0 ∧ boxDemo.Lz*boxDemo.scale ≠ 0 := by
  have hl : (g2_3D id boxDemo).length = 4 := by decide +kernel
  refine ⟨⟨rfl, hl.symm, fun c chk h => @decide_eq_true _ (Classical.propDecidable _) h⟩, ?_, by decide +kernel, by decide +kernel, by decide +kernel⟩
  rintro p d ⟨-, -, -, -, h1, h2⟩
  rw [hl] at h2
  rw [C79_serial h1 (show p ≤ 4 from h2) (.inl rfl)]
  omega

/-- The calls of the demo: two connections in each of the directions `x` and `y`, two periodic ones in `x`, and four closed patches in `z`. -/
example : (acts3D boxDemo).filterMap joinOf = [face 2 1 2 2 1, face 2 3 4 2 1, face 2 1 3 4 3, face 2 2 4 4 3, face 2 1 2 1 2, face 2 3 4 1 2] ∧
    (acts3D boxDemo).filterMap closeOf = [(1, 3), (2, 3), (3, 3), (4, 3)] := by decide +kernel

end IFEM.PatchGen
