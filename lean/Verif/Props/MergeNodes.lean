import Verif.Props.RenumberData
/-!
# C21: merging of nodes
-/
namespace IFEM.Props
open IFEM IFEM.Spec IFEM.Lem

variable {K : Type}

/-- Replacing the node number `o` by `g`. -/
def rho (o g n : Int) : Int := if n = o then g else n

/-- The patch with node number `o` replaced by `g` everywhere. -/
def renamed (o g : Int) (p : Patch K) : Patch K :=
  { p with mlgn := p.mlgn.map (rho o g), bcode := p.bcode.map fun b => { b with node := rho o g b.node },
           mpcs := p.mpcs.map fun m => { m with node := rho o g m.node, master := m.master.map fun t => { t with node := rho o g t.node } },
           dcode := p.dcode.map fun q => ((rho o g q.1.1, q.1.2), q.2) }

theorem renumberOld_single (o g n : Int) : (renumberOld [(o, g)] n).2 = rho o g n := by
  unfold renumberOld rho
  rw [List.lookup_cons]
  by_cases h : n = o
  · simp [h]
  · rw [show (n == o) = false by simpa using h]; simp [h]

theorem renumberBcs_single (o g : Int) (bcs : List Bc) : (renumberBcs [(o, g)] false bcs).1 = bcs.map fun b => { b with node := rho o g b.node } := by
  induction bcs with
  | nil => rfl
  | cons b bs ih =>
    rw [renumberBcs]
    have h2 := renumberOld_single o g b.node
    cases h : (renumberOld [(o, g)] b.node).1 with
    | true => simp only [if_true, List.map_cons, ih, h2]
    | false =>
      simp only [Bool.false_eq_true, if_false, List.map_cons, ih]
      congr 1
      have : rho o g b.node = b.node := by
        rw [← h2]
        unfold renumberOld at h ⊢
        cases hl : [(o, g)].lookup b.node with
        | none => rfl
        | some v => rw [hl] at h; simp at h
      rw [this]

theorem renumberMpc_single (o g : Int) (m : Mpc K) :
    (renumberMpc [(o, g)] m).1 = { m with node := rho o g m.node, master := m.master.map fun t => { t with node := rho o g t.node } } := by
  unfold renumberMpc
  simp only [renumberOld_single]

theorem renumberData_one (o g : Int) (p : Patch K) : (renumberData [(o, g)] 1 p).2 = renamed o g p := by
  unfold renumberData renamed
  dsimp only
  rw [show decide ([(o, g)].length > 1 ∧ (1:Int) < 2) = false by simp, renumberBcs_single, if_pos (by omega)]
  simp only [renumberOld_single, renumberMpc_single]

theorem renumberData_zero (o g : Int) (p : Patch K) : renumberData [(o, g)] 0 p = (true, { renamed o g p with mlgn := p.mlgn }) := by
  unfold renumberData renamed
  dsimp only
  rw [show decide ([(o, g)].length > 1 ∧ (0:Int) < 2) = false by simp, renumberBcs_single, if_neg (show ¬ ((0:Int) > 0) by omega)]
  simp only [renumberOld_single, renumberMpc_single, Bool.and_false, Bool.not_false]

theorem rho_idem (o g n : Int) (h : o ≠ g) : rho o g (rho o g n) = rho o g n := by
  unfold rho
  by_cases h1 : n = o
  · rw [if_pos h1, if_neg (Ne.symm h)]
  · rw [if_neg h1, if_neg h1]

theorem renamed_idem (o g : Int) (p : Patch K) (h : o ≠ g) : renamed o g (renamed o g p) = renamed o g p := by
  unfold renamed
  simp only [List.map_map, Function.comp_def, rho_idem o g _ h]

theorem renamed_fix (o g : Int) (p : Patch K) (h1 : o ∉ p.mlgn) (h2 : ¬ Refers p o) (h3 : ∀ q ∈ p.dcode, q.1.1 ≠ o) : renamed o g p = p := by
  have hr : ∀ n, n ≠ o → rho o g n = n := fun n hn => by unfold rho; rw [if_neg hn]
  have e1 : p.mlgn.map (rho o g) = p.mlgn := by
    conv_rhs => rw [← List.map_id p.mlgn]
    exact List.map_congr_left fun n hn => hr n fun hc => h1 (hc ▸ hn)
  have e2 : p.bcode.map (fun b => { b with node := rho o g b.node }) = p.bcode := by
    conv_rhs => rw [← List.map_id p.bcode]
    exact List.map_congr_left fun b hb => by rw [hr b.node fun hc => h2 (Or.inl ⟨b, hb, hc⟩)]; rfl
  have e3 : p.mpcs.map (fun m => { m with node := rho o g m.node, master := m.master.map fun t => { t with node := rho o g t.node } }) = p.mpcs := by
    conv_rhs => rw [← List.map_id p.mpcs]
    refine List.map_congr_left fun m hm => ?_
    have : m.master.map (fun t => { t with node := rho o g t.node }) = m.master := by
      conv_rhs => rw [← List.map_id m.master]
      exact List.map_congr_left fun t ht => by rw [hr t.node fun hc => h2 (Or.inr ⟨m, hm, Or.inr ⟨t, ht, hc⟩⟩)]; rfl
    rw [this, hr m.node fun hc => h2 (Or.inr ⟨m, hm, Or.inl hc⟩)]; rfl
  have e4 : p.dcode.map (fun q => ((rho o g q.1.1, q.1.2), q.2)) = p.dcode := by
    conv_rhs => rw [← List.map_id p.dcode]
    exact List.map_congr_left fun q hq => by rw [hr q.1.1 (h3 q hq)]; rfl
  unfold renamed
  rw [e1, e2, e3, e4]

/-- The loop over the neighbours. -/
theorem neighbor_loop (o g : Int) (hog : o ≠ g) (nb : List Nat) (ps : List (Patch K)) (i : Nat) :
    (nb.foldl (fun ps r => match ps[r]? with | some x => ps.set r (renumberData [(o, g)] 1 x).2 | none => ps) ps)[i]? =
      (ps[i]?).map fun x => if i ∈ nb then renamed o g x else x := by
  induction nb generalizing ps with
  | nil => simp
  | cons r nb ih =>
    rw [List.foldl_cons, ih]
    cases hr : ps[r]? with
    | none =>
      dsimp only
      cases hi : ps[i]? with
      | none => rfl
      | some x =>
        simp only [Option.map_some, Option.some.injEq, List.mem_cons]
        have : i ≠ r := by rintro rfl; rw [hr] at hi; simp at hi
        simp only [this, false_or]
    | some y =>
      dsimp only
      rw [renumberData_one]
      by_cases hi : i = r
      · subst hi
        obtain ⟨hlt, _⟩ := List.getElem?_eq_some_iff.mp hr
        rw [List.getElem?_set_self hlt, hr]
        simp only [Option.map_some, List.mem_cons, true_or, if_true, Option.some.injEq]
        split
        · exact renamed_idem o g y hog
        · rfl
      · rw [List.getElem?_set_ne (Ne.symm hi)]
        simp only [List.mem_cons, hi, false_or]

/-- Merging a node of patch `q` whose number is used only by its neighbours, and once in the patch itself, is the replacement of the old by the new number in the whole model. -/
theorem C21_merge (M : PatchModel K) (q inod : Nat) (p : Patch K) (g o : Int) (hq : M.patches[q]? = some p)
    (h1 : 1 ≤ inod) (ho : p.mlgn[inod-1]? = some o) (hog : o ≠ g)
    (hone : ∀ k : Nat, p.mlgn[k]? = some o → k = inod - 1)
    (hothers : ∀ (r : Nat) (x : Patch K), M.patches[r]? = some x → r ≠ q → r ∉ M.neighbors.getD q [] →
      o ∉ x.mlgn ∧ ¬ Refers x o ∧ ∀ e ∈ x.dcode, e.1.1 ≠ o) :
    mergeNodes M q inod g = (true, { M with patches := M.patches.map (renamed o g) }) := by
  obtain ⟨hlt, hget⟩ := List.getElem?_eq_some_iff.mp ho
  have hold : p.mlgn.getD (inod-1) 0 = o := by rw [List.getD_eq_getElem?_getD, ho]; rfl
  have hset : p.mlgn.set (inod-1) g = p.mlgn.map (rho o g) := by
    apply List.ext_getElem?
    intro k
    rw [List.getElem?_map]
    by_cases hk : k = inod - 1
    · subst hk
      rw [List.getElem?_set_self hlt, ho]
      simp [rho]
    · rw [List.getElem?_set_ne (Ne.symm hk)]
      cases hx : p.mlgn[k]? with
      | none => rfl
      | some x =>
        have : x ≠ o := by rintro rfl; exact hk (hone k hx)
        simp [rho, this]
  unfold mergeNodes
  rw [hq]
  dsimp only
  rw [if_neg (by omega), hold, if_neg hog]
  generalize hps : (M.neighbors.getD q []).foldl (fun ps r => match ps[r]? with | some x => ps.set r (renumberData [(o, g)] 1 x).2 | none => ps)
    (M.patches.set q { p with mlgn := p.mlgn.set (inod-1) g }) = ps
  have hps' : ∀ i, ps[i]? = ((M.patches.set q { p with mlgn := p.mlgn.set (inod-1) g })[i]?).map fun x => if i ∈ M.neighbors.getD q [] then renamed o g x else x := by
    intro i; rw [← hps]; exact neighbor_loop o g hog _ _ i
  obtain ⟨hqlt, _⟩ := List.getElem?_eq_some_iff.mp hq
  have hqq := hps' q
  rw [List.getElem?_set_self hqlt, Option.map_some] at hqq
  rw [hqq]
  dsimp only
  rw [renumberData_zero]
  dsimp only
  congr 2
  apply List.ext_getElem?
  intro i
  rw [List.getElem?_map]
  by_cases hi : i = q
  · subst hi
    have hl : i < ps.length := by
      obtain ⟨h, _⟩ := List.getElem?_eq_some_iff.mp hqq; exact h
    rw [List.getElem?_set_self hl, hq, Option.map_some]
    congr 1
    split
    · rw [renamed_idem _ _ _ hog]
      unfold renamed
      simp only [hset, List.map_map, Function.comp_def, rho_idem o g _ hog]
    · unfold renamed
      simp only [hset]
  · rw [List.getElem?_set_ne (Ne.symm hi), hps', List.getElem?_set_ne (Ne.symm hi)]
    cases hx : M.patches[i]? with
    | none => rfl
    | some x =>
      rw [Option.map_some, Option.map_some]
      split
      · rfl
      · rename_i hn
        obtain ⟨a1, a2, a3⟩ := hothers i x hx hi hn
        rw [renamed_fix o g x a1 a2 a3]

/-- After collapsing, the two nodes have the same global number, the smaller of the two. -/
theorem C21_collapse (M : PatchModel K) (q1 q2 : Nat) (n1 n2 : Int) (p1 p2 : Patch K) (g1 g2 : Int)
    (hq1 : M.patches[q1]? = some p1) (hq2 : M.patches[q2]? = some p2)
    (h1 : 1 ≤ n1) (h2 : 1 ≤ n2) (hg1 : p1.mlgn[(n1-1).toNat]? = some g1) (hg2 : p2.mlgn[(n2-1).toNat]? = some g2) (hne : g1 ≠ g2)
    (hmerge : ∀ (q : Nat) (p : Patch K) (n : Int) (o g : Int), ((q, p, n, o, g) = (q1, p1, n1, g1, g2) ∧ g2 < g1) ∨ ((q, p, n, o, g) = (q2, p2, n2, g2, g1) ∧ g1 < g2) →
      (∀ k : Nat, p.mlgn[k]? = some o → k = (n - 1).toNat) ∧
      ∀ (r : Nat) (x : Patch K), M.patches[r]? = some x → r ≠ q → r ∉ M.neighbors.getD q [] → o ∉ x.mlgn ∧ ¬ Refers x o ∧ ∀ e ∈ x.dcode, e.1.1 ≠ o) :
    (collapseNodes M q1 n1 q2 n2).1 = true ∧
    (collapseNodes M q1 n1 q2 n2).2.patches = M.patches.map (renamed (max g1 g2) (min g1 g2)) := by
  obtain ⟨l1, _⟩ := List.getElem?_eq_some_iff.mp hg1
  obtain ⟨l2, _⟩ := List.getElem?_eq_some_iff.mp hg2
  have e1 : p1.mlgn.getD (n1-1).toNat 0 = g1 := by rw [List.getD_eq_getElem?_getD, hg1]; rfl
  have e2 : p2.mlgn.getD (n2-1).toNat 0 = g2 := by rw [List.getD_eq_getElem?_getD, hg2]; rfl
  unfold collapseNodes
  rw [hq1, hq2]
  dsimp only
  rw [if_neg (by omega), if_neg (by omega), e1, e2]
  rcases Int.lt_or_gt_of_ne hne with hlt | hgt
  · rw [if_neg (by omega), if_pos (by omega)]
    obtain ⟨a1, a2⟩ := hmerge q2 p2 n2 g2 g1 (Or.inr ⟨rfl, hlt⟩)
    have en : n2.toNat - 1 = (n2 - 1).toNat := by omega
    rw [C21_merge M q2 n2.toNat p2 g1 g2 hq2 (by omega) (by rw [en]; exact hg2) (by omega) (by rw [en]; exact a1) a2]
    refine ⟨rfl, ?_⟩
    rw [show max g1 g2 = g2 by omega, show min g1 g2 = g1 by omega]
  · rw [if_pos (by omega)]
    obtain ⟨a1, a2⟩ := hmerge q1 p1 n1 g1 g2 (Or.inl ⟨rfl, hgt⟩)
    have en : n1.toNat - 1 = (n1 - 1).toNat := by omega
    rw [C21_merge M q1 n1.toNat p1 g2 g1 hq1 (by omega) (by rw [en]; exact hg1) (by omega) (by rw [en]; exact a1) a2]
    refine ⟨rfl, ?_⟩
    rw [show max g1 g2 = g1 by omega, show min g1 g2 = g2 by omega]

/-- The pairs of connected nodes have the same global number. -/
def Connected (M : PatchModel K) (q : Nat) (n : Int) (r : Nat) (m : Int) : Prop :=
  ∃ x y g, M.patches[q]? = some x ∧ M.patches[r]? = some y ∧ x.mlgn[(n-1).toNat]? = some g ∧ y.mlgn[(m-1).toNat]? = some g

instance [DecidableEq K] : DecidableEq (PatchModel K) := fun a b => by
  cases a; cases b
  rw [PatchModel.mk.injEq]
  infer_instance

/-- Four one-element beams meeting in one point, numbered one after the other. -/
def fourBeams : PatchModel Rat :=
  { patches := [{ nf := 1, mlgn := [1,2] }, { nf := 1, mlgn := [3,4] }, { nf := 1, mlgn := [5,6] }, { nf := 1, mlgn := [7,8] }],
    neighbors := [[], [], [], []] }

/-- The connections of the beams at their first nodes, in the given order: beam 3 to 2, beam 4 to 3, beam 2 to 1. -/
def fourBeamsConnected : PatchModel Rat :=
  connect (connect (connect fourBeams 2 1 [(1,1)]) 3 2 [(1,1)]) 1 0 [(1,1)]

/-- Finding F48: a merge renumbers only the direct neighbours of the patch.  Connecting the beams 2-3, 3-4 and then 1-2 leaves beam 4 with a number of its own,
so it is no longer connected to beam 3. -/
theorem C21_connection_lost :
    Connected (connect (connect fourBeams 2 1 [(1,1)]) 3 2 [(1,1)]) 3 1 2 1 ∧ ¬ Connected fourBeamsConnected 3 1 2 1 ∧
    fourBeamsConnected.patches.map (fun p => p.mlgn) = [[1,2], [1,4], [1,6], [3,8]] := by
  have e : fourBeamsConnected.patches.map (fun p => p.mlgn) = [[1,2], [1,4], [1,6], [3,8]] := by decide +kernel
  have e0 : (connect (connect fourBeams 2 1 [(1,1)]) 3 2 [(1,1)]).patches.map (fun p => p.mlgn) = [[1,2], [3,4], [3,6], [3,8]] := by decide +kernel
  have get : ∀ (M : PatchModel Rat) (ms : List (List Int)) (k : Nat) (l : List Int), M.patches.map (fun p => p.mlgn) = ms → ms[k]? = some l → ∃ x, M.patches[k]? = some x ∧ x.mlgn = l := by
    intro M ms k l h1 h2
    rw [← h1, List.getElem?_map] at h2
    cases hx : M.patches[k]? with
    | none => rw [hx] at h2; simp at h2
    | some x => rw [hx] at h2; simp at h2; exact ⟨x, rfl, h2⟩
  refine ⟨?_, ?_, e⟩
  · obtain ⟨x, hx, ex⟩ := get _ _ 3 [3,8] e0 rfl
    obtain ⟨y, hy, ey⟩ := get _ _ 2 [3,6] e0 rfl
    exact ⟨x, y, 3, hx, hy, by rw [ex]; rfl, by rw [ey]; rfl⟩
  · rintro ⟨x, y, g, hx, hy, h1, h2⟩
    obtain ⟨x', hx', ex⟩ := get _ _ 3 [3,8] e rfl
    obtain ⟨y', hy', ey⟩ := get _ _ 2 [1,6] e rfl
    rw [hx'] at hx; rw [hy'] at hy
    simp only [Option.some.injEq] at hx hy
    subst hx; subst hy
    rw [ex] at h1; rw [ey] at h2
    simp at h1 h2
    omega

end IFEM.Props
