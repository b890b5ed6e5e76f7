import Verif.Lemmas.SparseOps
import Verif.Lemmas.Coupling
import Verif.Spec.Coupling
/-! Sparse assembly of finite element models. -/
namespace IFEM.Spec
open IFEM.Sam IFEM.Sparse
variable {R : Type} [CommRing R]
attribute [-simp] Fin.getElem_fin

section
variable {s : Sam R} {eM : Mat R} {meen : List Int} {tm : Int → List (Int × R)} {g : Int → R} {M : Nat → Nat → R}

/-- All matrix additions address couplings of the element. -/
theorem assemUpd_pat (hM : ∀ i j : Fin meen.length, eM.elm? i j = some (M i j))
    (hmt : ∀ e ∈ meen, e < 0 → s.masterTerms (-e) = (tm e).map some)
    (hoff : ∀ e ∈ meen, e < 0 → s.offset? (-e) = some (g e)) (sv : Bool) {r c : Int} {v : R}
    (hu : some (Upd.mat r c v) ∈ s.assemUpd eM meen sv) :
    (∃ x ∈ meen, r ∈ eqsOf tm x) ∧ ∃ y ∈ meen, c ∈ eqsOf tm y := by
  unfold assemUpd at hu
  rcases List.mem_append.1 hu with hu | hu
  · unfold assemFree at hu
    rw [List.mem_flatMap] at hu
    obtain ⟨j, _, hu⟩ := hu
    have pj := fmem meen j
    by_cases hj : meen[j] < 1
    · simp [hj] at hu
    · simp only [if_neg hj, List.mem_cons, List.mem_flatMap, hM, Option.map_some] at hu
      rcases hu with hu | ⟨i, _, hu⟩
      · cases hu
        exact ⟨⟨_, pj, (mem_eqsOf_pos (by omega)).2 rfl⟩, ⟨_, pj, (mem_eqsOf_pos (by omega)).2 rfl⟩⟩
      · have pi := fmem meen i
        by_cases hi : meen[i] < 1
        · simp [hi] at hu
        · simp only [if_neg hi, List.mem_cons, List.not_mem_nil, or_false] at hu
          rcases hu with hu | hu
          · cases hu
            exact ⟨⟨_, pi, (mem_eqsOf_pos (by omega)).2 rfl⟩, ⟨_, pj, (mem_eqsOf_pos (by omega)).2 rfl⟩⟩
          · cases hu
            exact ⟨⟨_, pj, (mem_eqsOf_pos (by omega)).2 rfl⟩, ⟨_, pi, (mem_eqsOf_pos (by omega)).2 rfl⟩⟩
  · unfold assemSlaves at hu
    rw [List.mem_flatMap] at hu
    obtain ⟨j, _, hu⟩ := hu
    unfold assemSlave at hu
    by_cases hj : -meen[j] < 1
    · simp [hj] at hu
    · rw [if_neg hj, hoff meen[j] (fmem meen j) (by omega)] at hu
      simp only [List.mem_append] at hu
      rcases hu with hu | hu
      · cases sv
        · simp at hu
        · simp only [if_true] at hu
          unfold assemSlaveRHS at hu
          rw [List.mem_flatMap] at hu
          obtain ⟨i, _, hu⟩ := hu
          rw [hM] at hu
          by_cases hi : meen[i] > 0
          · simp only [if_pos hi, List.mem_cons, List.not_mem_nil, or_false, Option.map_some] at hu
            cases hu
          · by_cases hi2 : -meen[i] > 0
            · simp only [if_neg hi, if_pos hi2] at hu
              rw [hmt meen[i] (fmem meen i) (by omega)] at hu
              simp only [List.map_map, List.mem_map, Function.comp, Option.bind_some, Option.map_some] at hu
              obtain ⟨t, ht, hu⟩ := hu
              cases hu
            · simp only [if_neg hi, if_neg hi2] at hu; simp at hu
      · unfold assemSlaveMat at hu
        rw [hmt meen[j] (fmem meen j) (by omega), List.mem_flatMap] at hu
        obtain ⟨t, ht, hu⟩ := hu
        obtain ⟨t, ht', rfl⟩ := List.mem_map.1 ht
        simp only [List.mem_flatMap] at hu
        obtain ⟨i, _, hu⟩ := hu
        have hcj : t.1 ∈ eqsOf tm meen[j] := (mem_eqsOf_neg (by omega)).2 ⟨t, ht', rfl⟩
        rw [hM, hM] at hu
        by_cases hi : meen[i] > 0
        · have hri : meen[i] ∈ eqsOf tm meen[i] := (mem_eqsOf_pos hi).2 rfl
          simp only [if_pos hi, List.mem_cons, List.not_mem_nil, or_false, Option.map_some] at hu
          rcases hu with hu | hu
          · cases hu
            exact ⟨⟨_, fmem meen i, hri⟩, ⟨_, fmem meen j, hcj⟩⟩
          · cases hu
            exact ⟨⟨_, fmem meen j, hcj⟩, ⟨_, fmem meen i, hri⟩⟩
        · by_cases hi2 : -meen[i] > 0
          · simp only [if_neg hi, if_pos hi2] at hu
            rw [hmt meen[i] (fmem meen i) (by omega)] at hu
            simp only [List.map_map, List.mem_map, Function.comp, Option.bind_some, Option.map_some] at hu
            obtain ⟨u, hu', hu⟩ := hu
            cases hu
            exact ⟨⟨_, fmem meen i, (mem_eqsOf_neg (by omega)).2 ⟨u, hu', rfl⟩⟩, ⟨_, fmem meen j, hcj⟩⟩
          · simp only [if_neg hi, if_neg hi2] at hu; simp at hu
end

variable {s : Sam R} {D : FEModel R}

theorem actsOn_iff (hr : Ready s D) (hv : D.Valid) {iel : Nat} (hi : D.nodesOf iel ∈ D.elems) (r : Int) :
    ActsOn s D iel r ↔ ∃ x ∈ (D.dofsOf iel).map (eqvO s), r ∈ eqsOf (tmOf s D) x := by
  constructor
  · rintro ⟨d, hd, h⟩
    refine ⟨eqvO s (some d), List.mem_map.2 ⟨_, hd, rfl⟩, ?_⟩
    simp only [eqvO]
    rcases h with ⟨hf, he⟩ | ⟨c, hc, rfl, m, hm, he⟩
    · have := eqv_free hr hf
      rw [EqnOf, this.1] at he
      rw [mem_eqsOf_pos (by omega)]
      exact (Option.some.inj he).symm
    · obtain ⟨k, hk⟩ := List.mem_iff_getElem?.1 hc
      rw [eqv_slave hr hk, mem_eqsOf_neg (by omega)]
      refine ⟨(eqv s m.1, m.2), ?_, ?_⟩
      · unfold tmOf
        rw [code_index, hk]
        exact List.mem_map.2 ⟨m, hm, rfl⟩
      · have := (eqv_free hr (hv.master c hc m hm)).1
        rw [EqnOf, this] at he
        exact Option.some.inj he
  · rintro ⟨x, hx, hrx⟩
    obtain ⟨o, ho, rfl⟩ := List.mem_map.1 hx
    have hok := dofs_ok hv hi o ho
    by_cases hp : eqvO s o > 0
    · rw [mem_eqsOf_pos hp] at hrx
      subst hrx
      cases o with
      | none => simp [eqvO] at hp
      | some d =>
        refine ⟨d, ho, Or.inl ?_⟩
        obtain ⟨h1, h2⟩ := hok d rfl
        simp only [eqvO] at hp ⊢
        rcases dof_cases D hv h1 h2 with hf | ⟨k, c, hc, rfl⟩ | ⟨hs, hn⟩
        · exact ⟨hf, (eqv_free hr hf).1⟩
        · rw [eqv_slave hr hc] at hp; omega
        · rw [eqv_fixed hr hs hn] at hp; omega
    · by_cases hn : eqvO s o < 0
      · rw [mem_eqsOf_neg hn] at hrx
        obtain ⟨k, c, hc, rfl, hcode⟩ := neg_code hr hv hok hn
        obtain ⟨t, ht, rfl⟩ := hrx
        rw [hcode] at ht
        unfold tmOf at ht
        rw [code_index, hc] at ht
        obtain ⟨m, hm, rfl⟩ := List.mem_map.1 ht
        have hcm := List.mem_of_getElem? hc
        exact ⟨c.slave, ho, Or.inr ⟨c, hcm, rfl, m, hm, (eqv_free hr (hv.master c hcm m hm)).1⟩⟩
      · exact absurd hrx (not_mem_eqsOf hp hn)

theorem actsOn_range (hr : Ready s D) (hv : D.Valid) {iel : Nat} {r : Int} (h : ActsOn s D iel r) :
    1 ≤ r ∧ r ≤ s.neq := by
  obtain ⟨d, hd, ⟨hf, he⟩ | ⟨c, hc, rfl, m, hm, he⟩⟩ := h
  · have := eqv_free hr hf
    rw [EqnOf, this.1] at he
    rw [← Option.some.inj he]; exact this.2
  · have := eqv_free hr (hv.master c hc m hm)
    rw [EqnOf, this.1] at he
    rw [← Option.some.inj he]; exact this.2

theorem nodesOf_mem' {iel : Nat} (h : 1 ≤ iel ∧ iel ≤ D.elems.length) :
    D.elems[iel-1]? = some (D.nodesOf iel) ∧ D.nodesOf iel ∈ D.elems := by
  have hlt : iel - 1 < D.elems.length := by omega
  have : D.nodesOf iel = D.elems[iel-1] := by
    unfold FEModel.nodesOf
    rw [List.getD_eq_getElem?_getD, List.getElem?_eq_getElem hlt]; rfl
  rw [this]
  exact ⟨List.getElem?_eq_getElem hlt, List.getElem_mem hlt⟩

theorem elmMt (hr : Ready s D) (hv : D.Valid) {e : List Int} (hmem : e ∈ D.elems) :
    ∀ x ∈ (D.elmDofs e).map (eqvO s), x < 0 → s.masterTerms (-x) = (tmOf s D x).map some := by
  intro x hx hn
  obtain ⟨o, ho, rfl⟩ := List.mem_map.1 hx
  exact (tm_facts hr hv (dofs_ok hv hmem o ho) hn).1

theorem elmOff (hr : Ready s D) (hv : D.Valid) {e : List Int} (hmem : e ∈ D.elems) :
    ∀ x ∈ (D.elmDofs e).map (eqvO s), x < 0 → s.offset? (-x) = some (gOf D x) := by
  intro x hx hn
  obtain ⟨o, ho, rfl⟩ := List.mem_map.1 hx
  exact (tm_facts hr hv (dofs_ok hv hmem o ho) hn).2.1

/-- Insertion keeps rows duplicate free. -/
theorem insertCoupling_nodup (ps : List (Option (Int × Int))) : ∀ (dofc dofc' : List (List Int)),
    (∀ l ∈ dofc, l.Nodup) → ps.foldlM insertCoupling dofc = some dofc' → ∀ l ∈ dofc', l.Nodup := by
  induction ps with
  | nil => intro dofc dofc' h he; cases he; exact h
  | cons p ps ih =>
    intro dofc dofc' h he
    rw [List.foldlM_cons] at he
    cases h1 : insertCoupling dofc p with
    | none => rw [h1] at he; cases he
    | some d1 =>
      rw [h1] at he
      refine ih d1 dofc' ?_ he
      unfold insertCoupling at h1
      cases p with
      | none => cases h1
      | some p =>
        simp only [Option.bind_eq_bind, Option.bind_some] at h1
        cases h2 : at1? dofc p.1 with
        | none => rw [h2] at h1; cases h1
        | some row =>
          rw [h2] at h1
          simp only [Option.bind_some] at h1
          obtain ⟨h3, h4, h5⟩ := set1?_eq_some h1
          intro l hl
          rw [h5] at hl
          have hrow : row.Nodup := by
            obtain ⟨_, _, g⟩ := at0?_eq_some h2
            exact h row (List.mem_of_getElem? g)
          rcases List.mem_or_eq_of_mem_set hl with hl | hl
          · exact h l hl
          · rw [hl]; split
            · exact hrow
            · rename_i hn; exact List.nodup_cons.2 ⟨hn, hrow⟩

/-- The couplings of a list of elements. -/
theorem couplings_loop (hr : Ready s D) (hv : D.Valid) (is : List Nat) (his : ∀ i ∈ is, 1 ≤ i ∧ i ≤ D.elems.length) :
    ∀ (dofc : List (List Int)), dofc.length = s.neq → (∀ l ∈ dofc, l.Nodup) → ∃ dofc',
    is.foldlM (fun dofc (iel : Nat) => do
      let meen ← s.getElmEqns iel 0
      (s.elmCouplings meen).foldlM insertCoupling dofc) dofc = some dofc' ∧ dofc'.length = s.neq ∧
    (∀ l ∈ dofc', l.Nodup) ∧
    ∀ (k : Nat) (c : Int), (∃ row, dofc'[k]? = some row ∧ c ∈ row) ↔ (∃ row, dofc[k]? = some row ∧ c ∈ row) ∨
      ∃ iel ∈ is, ActsOn s D iel ((k : Int)+1) ∧ ActsOn s D iel c := by
  induction is with
  | nil => intro dofc h hn; exact ⟨dofc, rfl, h, hn, by simp⟩
  | cons i is ih =>
    intro dofc hl hnd
    have hi := his i List.mem_cons_self
    obtain ⟨hget, hmem⟩ := nodesOf_mem' (D := D) hi
    have he : s.getElmEqns (i : Int) 0 = some ((D.dofsOf i).map (eqvO s)) := by
      have := getElmEqns_ready hr hv hget 0 (Or.inr (Or.inl rfl))
      rw [show (((i-1 : Nat) : Int) + 1) = (i : Int) by omega] at this
      exact this
    have hmt := elmMt hr hv hmem
    have hps : ∀ p ∈ s.elmCouplings ((D.dofsOf i).map (eqvO s)), ∃ r c, p = some (r, c) ∧ 1 ≤ r ∧ r ≤ s.neq := by
      intro p hp
      obtain ⟨r, c, rfl, hx, hy⟩ := elmCouplings_mem_of (tm := tmOf s D) hmt hp
      refine ⟨r, c, rfl, actsOn_range hr hv (iel := i) ?_⟩
      exact (actsOn_iff hr hv hmem r).2 hx
    obtain ⟨d1, g1, g2, g3⟩ := insertCouplings_spec s.neq _ hps dofc hl
    obtain ⟨d2, f1, f2, f2', f3⟩ := ih (fun j hj => his j (List.mem_cons_of_mem _ hj)) d1 g2
      (insertCoupling_nodup _ dofc d1 hnd g1)
    refine ⟨d2, ?_, f2, f2', ?_⟩
    · rw [List.foldlM_cons, he]
      simp only [Option.bind_eq_bind, Option.bind_some] at f1 ⊢
      rw [g1]
      exact f1
    · intro k c
      rw [f3, g3]
      have : some (((k : Int)+1), c) ∈ s.elmCouplings ((D.dofsOf i).map (eqvO s)) ↔
          ActsOn s D i ((k : Int)+1) ∧ ActsOn s D i c := by
        rw [actsOn_iff hr hv hmem, actsOn_iff hr hv hmem]
        constructor
        · intro hp
          obtain ⟨r', c', he, hx, hy⟩ := elmCouplings_mem_of (tm := tmOf s D) hmt hp
          cases he
          exact ⟨hx, hy⟩
        · rintro ⟨⟨x, hx, hrx⟩, ⟨y, hy, hcy⟩⟩
          exact elmCouplings_mem (tm := tmOf s D) hmt hx hy hrx hcy
      rw [this]
      constructor
      · rintro ((h | h) | ⟨j, hj, h⟩)
        · exact Or.inl h
        · exact Or.inr ⟨i, List.mem_cons_self, h⟩
        · exact Or.inr ⟨j, List.mem_cons_of_mem _ hj, h⟩
      · rintro (h | ⟨j, hj, h⟩)
        · exact Or.inl (Or.inl h)
        · rcases List.mem_cons.1 hj with rfl | hj
          · exact Or.inl (Or.inr h)
          · exact Or.inr ⟨j, hj, h⟩

theorem getDofCouplings_spec (hr : Ready s D) (hv : D.Valid) :
    ∃ dofc, s.getDofCouplings = some dofc ∧ dofc.length = s.neq ∧ (∀ l ∈ dofc, l.Nodup) ∧
    ∀ (k : Nat) (c : Int), (∃ row, dofc[k]? = some row ∧ c ∈ row) ↔
      ∃ iel, 1 ≤ iel ∧ iel ≤ D.elems.length ∧ ActsOn s D iel ((k : Int)+1) ∧ ActsOn s D iel c := by
  obtain ⟨dofc, h1, h2, h3, h4⟩ := couplings_loop hr hv (List.range' 1 s.nel)
    (by intro i hi; rw [List.mem_range'_1] at hi; have := hr.nel; omega)
    (List.replicate s.neq []) (by simp) (by intro l hl; rw [(List.mem_replicate.1 hl).2]; exact List.nodup_nil)
  refine ⟨dofc, h1, h2, h3, ?_⟩
  intro k c
  rw [h4]
  constructor
  · rintro (⟨row, hrow, hc⟩ | ⟨i, hi, h⟩)
    · rw [List.getElem?_replicate] at hrow
      split at hrow
      · cases hrow; cases hc
      · cases hrow
    · rw [List.mem_range'_1] at hi
      have := hr.nel
      exact ⟨i, by omega, by omega, h⟩
  · rintro ⟨i, h1, h2, h⟩
    refine Or.inr ⟨i, ?_, h⟩
    rw [List.mem_range'_1]
    have := hr.nel
    omega

/-- The storage can take all contributions of element `iel`. -/
def Takes (s : Sam R) (D : FEModel R) (M : Sparse R) (T : VMap R) (iel : Nat) : Prop :=
  M.editable = .pattern ∨ ∀ r c, ActsOn s D iel r → ActsOn s D iel c → (r.toNat, c.toNat) ∈ T.map Prod.fst

/-- Assembly of one element matrix into sparse storage gives the same result as into dense storage. -/
theorem sparse_assembleMat (hr : Ready s D) (hv : D.Valid) {e : Elem R} (h : ElemFits D e)
    (K : Mat R) (hwf : K.WF) (hrow : K.nrow = s.neq) (hcol : K.ncol = s.neq)
    (B : List R) (hB : B.length = s.neq)
    (M : Sparse R) (T : VMap R) (hM : Holds M T) (hmr : M.nrow = s.neq) (hmc : M.ncol = s.neq)
    (ht : Takes s D M T e.iel) (hval : ∀ r c : Nat, SpVal M r c = K.val r c) :
    ∃ K' M' B' T', s.assembleMat K B e.eK e.iel = some (K', B') ∧ Sparse.assembleMat s M B e.eK e.iel = some (M', B') ∧
      K'.WF ∧ K'.nrow = s.neq ∧ K'.ncol = s.neq ∧ B'.length = s.neq ∧ Holds M' T' ∧ M'.nrow = s.neq ∧ M'.ncol = s.neq ∧
      M'.editable = M.editable ∧ M'.solver = M.solver ∧ (∀ k, k ∈ T.map Prod.fst → k ∈ T'.map Prod.fst) ∧
      (∀ r c : Nat, SpVal M' r c = K'.val r c) := by
  unfold Sam.assembleMat Sparse.assembleMat
  by_cases he : e.eK.isEmpty
  · rw [if_pos he, if_pos he]
    exact ⟨K, M, B, T, rfl, rfl, hwf, hrow, hcol, hB, hM, hmr, hmc, rfl, rfl, fun _ h => h, hval⟩
  · rw [if_neg he, if_neg he]
    have hmem := nodesOf_mem h
    have hget := nodesOf_get h
    unfold Sam.assembleDense Sparse.assemble
    rw [if_neg (by omega), ← iel_cast h, getElmEqns_ready hr hv hget _ (Or.inr (Or.inr h.mat.row))]
    simp only [Option.bind_eq_bind, Option.bind_some]
    let Mf : Nat → Nat → R := fun i j => e.eK.val ((i:Int)+1) ((j:Int)+1)
    have hMf : ∀ i j : Fin ((D.elmDofs (D.nodesOf e.iel)).map (eqvO s)).length, e.eK.elm? i j = some (Mf i j) := by
      intro i j
      have hlen : ((D.elmDofs (D.nodesOf e.iel)).map (eqvO s)).length = (D.elmDofs (D.nodesOf e.iel)).length := by simp
      apply elm_fits h.mat <;> omega
    have hmt := elmMt hr hv hmem
    have hoff := elmOff hr hv hmem
    have hpos : ∀ x ∈ (D.elmDofs (D.nodesOf e.iel)).map (eqvO s), x ≤ K.nrow ∧ x ≤ K.ncol ∧ x ≤ B.length := by
      intro x hx
      obtain ⟨o, ho, rfl⟩ := List.mem_map.1 hx
      have := eqvO_le hr hv (dofs_ok hv hmem o ho)
      omega
    have htm : ∀ x ∈ (D.elmDofs (D.nodesOf e.iel)).map (eqvO s), x < 0 → ∀ t ∈ tmOf s D x,
        1 ≤ t.1 ∧ t.1 ≤ K.nrow ∧ t.1 ≤ K.ncol ∧ t.1 ≤ B.length := by
      intro x hx hn t ht
      obtain ⟨o, ho, rfl⟩ := List.mem_map.1 hx
      have := (tm_facts hr hv (dofs_ok hv hmem o ho) hn).2.2 t ht
      omega
    have hin := assemUpd_inB (s := s) (M := Mf) (tm := tmOf s D) (g := gOf D) hMf hmt hoff hpos htm (!B.isEmpty)
    have hsv : (if (!B.isEmpty) = true then B.length else 0) = B.length := by
      cases B <;> simp
    rw [hsv] at hin
    obtain ⟨K', B', g1, g2, g3, g4, g5, g6, g7⟩ := applyDense_list _ K B hwf hin
    obtain ⟨M', B'', T', f1, f2, f3, f4, f5, f6, f7, f8, f9, f10⟩ := applyUpd_list
      (s.assemUpd e.eK ((D.elmDofs (D.nodesOf e.iel)).map (eqvO s)) (!B.isEmpty)) M T B hM (by
        intro u hu
        have hub := hin u hu
        match u, hu, hub with
        | some (.mat r c v), hu, hub =>
          have hub' : 1 ≤ r ∧ r ≤ K.nrow ∧ 1 ≤ c ∧ c ≤ K.ncol := hub
          refine ⟨by omega, ?_⟩
          rcases ht with ht | ht
          · exact Or.inl ht
          · obtain ⟨hx, hy⟩ := assemUpd_pat (M := Mf) (tm := tmOf s D) (g := gOf D) hMf hmt hoff _ hu
            exact Or.inr (ht r c ((actsOn_iff hr hv hmem r).2 hx) ((actsOn_iff hr hv hmem c).2 hy))
        | some (.vec r v), hu, hub => exact hub)
    have hBB : B'' = B' := list_ext_vval (by omega) (by intro r; rw [f10, g7])
    subst hBB
    refine ⟨K', M', B'', T', g1, f1, g2, by omega, by omega, by omega, f2, by omega, by omega, f5, f6, f8, ?_⟩
    intro r c
    rw [f9, g6, hval]

theorem takes_mono {M M' : Sparse R} {T T' : VMap R} {i : Nat} (h : Takes s D M T i) (he : M'.editable = M.editable)
    (hT : ∀ k, k ∈ T.map Prod.fst → k ∈ T'.map Prod.fst) : Takes s D M' T' i := by
  rcases h with h | h
  · exact Or.inl (he.trans h)
  · exact Or.inr fun r c hr hc => hT _ (h r c hr hc)

/-- Assembly of a list of elements into sparse storage gives the same result as into dense storage. -/
theorem sparse_assembleAll (hr : Ready s D) (hv : D.Valid) (es : List (Elem R)) : ∀ (_ : ∀ e ∈ es, ElemFits D e)
    (K : Mat R) (_ : K.WF) (_ : K.nrow = s.neq) (_ : K.ncol = s.neq)
    (B : List R) (_ : B.length = s.neq)
    (M : Sparse R) (T : VMap R) (_ : Holds M T) (_ : M.nrow = s.neq) (_ : M.ncol = s.neq)
    (_ : ∀ e ∈ es, Takes s D M T e.iel) (_ : ∀ r c : Nat, SpVal M r c = K.val r c),
    ∃ K' M' B' T', s.assembleAll (K, B) es = some (K', B') ∧ Sparse.assembleAll s (M, B) es = some (M', B') ∧
      Holds M' T' ∧ M'.nrow = s.neq ∧ M'.ncol = s.neq ∧ M'.editable = M.editable ∧ M'.solver = M.solver ∧
      (∀ k, k ∈ T.map Prod.fst → k ∈ T'.map Prod.fst) ∧ (∀ r c : Nat, SpVal M' r c = K'.val r c) := by
  induction es with
  | nil =>
    intro _ K _ _ _ B _ M T hM hmr hmc _ hval
    exact ⟨K, M, B, T, rfl, rfl, hM, hmr, hmc, rfl, rfl, fun _ h => h, hval⟩
  | cons e es ih =>
    intro hes K hwf hrow hcol B hB M T hM hmr hmc ht hval
    have he := hes e List.mem_cons_self
    obtain ⟨B1, b1, b2, -⟩ := assembleVec_spec hr hv he B hB
    obtain ⟨K1, M1, B2, T1, h1, h2, h3, h4, h5, h6, h7, h8, h9, h10, h11, h12, h13⟩ :=
      sparse_assembleMat hr hv he K hwf hrow hcol B1 b2 M T hM hmr hmc (ht e List.mem_cons_self) hval
    obtain ⟨K', M', B', T', g1, g2, g3, g4, g5, g6, g7, g8, g9⟩ := ih (fun e' h' => hes e' (List.mem_cons_of_mem _ h'))
      K1 h3 h4 h5 B2 h6 M1 T1 h7 h8 h9
      (fun e' h' => takes_mono (ht e' (List.mem_cons_of_mem _ h')) h10 h12) h13
    refine ⟨K', M', B', T', ?_, ?_, g3, g4, g5, g6.trans h10, g7.trans h11, fun k hk => g8 k (h12 k hk), g9⟩
    · unfold Sam.assembleAll at g1 ⊢
      rw [List.foldlM_cons]
      unfold Sam.assembleElm at g1 ⊢
      simp only [b1, h1, Option.bind_eq_bind, Option.bind_some] at g1 ⊢
      exact g1
    · unfold Sparse.assembleAll at g2 ⊢
      rw [List.foldlM_cons]
      unfold Sparse.assembleElm at g2 ⊢
      simp only [b1, h2, Option.bind_eq_bind, Option.bind_some] at g2 ⊢
      exact g2

/-! ## Pre-assembly -/

theorem setRow_spec (row : Nat) (ks : List Int) : ∀ (M : Sparse R) (T : VMap R), Holds M T → M.editable = .pattern →
    1 ≤ row → row ≤ M.nrow → (∀ k ∈ ks, 1 ≤ k ∧ k ≤ M.ncol) → (∀ r c, SpVal M r c = 0) →
    ∃ M' T', ks.foldlM (fun (M : Sparse R) k => if k < 1 then none else M.setAt? row k.toNat 0) M = some M' ∧
      Holds M' T' ∧ M'.nrow = M.nrow ∧ M'.ncol = M.ncol ∧ M'.editable = .pattern ∧ M'.solver = M.solver ∧
      (∀ r c, SpVal M' r c = 0) ∧ (∀ k, k ∈ T'.map Prod.fst ↔ k ∈ T.map Prod.fst ∨ ∃ j ∈ ks, k = (row, j.toNat)) := by
  induction ks with
  | nil => intro M T h he _ _ _ hz; exact ⟨M, T, rfl, h, rfl, rfl, he, rfl, hz, by simp⟩
  | cons k ks ih =>
    intro M T h he h1 h2 hk hz
    have hk0 := hk k List.mem_cons_self
    obtain ⟨M1, T1, m1, m2, m3, m4, m5, m6, m7, m8⟩ := modify?_spec h (fun _ => (0 : R)) row k.toNat (by omega) (Or.inl he)
    obtain ⟨M2, T2, g1, g2, g3, g4, g5, g6, g7, g8⟩ := ih M1 T1 m2 (by rw [m5, he]) h1 (by omega)
      (by intro j hj; rw [m4]; exact hk j (List.mem_cons_of_mem _ hj)) (by
        intro r c
        rw [spVal_spec m2, m7]
        have := hz r c
        rw [spVal_spec h] at this
        split
        · rfl
        · exact this)
    refine ⟨M2, T2, ?_, g2, by omega, by omega, g5, by rw [g6, m6], g7, ?_⟩
    · rw [List.foldlM_cons, if_neg (by omega)]
      unfold setAt?
      rw [m1]
      exact g1
    · intro k'
      rw [g8, m8]
      constructor
      · rintro ((h | h) | ⟨j, hj, h⟩)
        · exact Or.inr ⟨k, List.mem_cons_self, h⟩
        · exact Or.inl h
        · exact Or.inr ⟨j, List.mem_cons_of_mem _ hj, h⟩
      · rintro (h | ⟨j, hj, h⟩)
        · exact Or.inl (Or.inr h)
        · rcases List.mem_cons.1 hj with rfl | hj
          · exact Or.inl (Or.inl h)
          · exact Or.inr ⟨j, hj, h⟩

theorem setPat_spec (ps : List (List Int × Nat)) : ∀ (M : Sparse R) (T : VMap R), Holds M T → M.editable = .pattern →
    (∀ p ∈ ps, p.2 < M.nrow ∧ ∀ k ∈ p.1, 1 ≤ k ∧ k ≤ M.ncol) → (∀ r c, SpVal M r c = 0) →
    ∃ M' T', ps.foldlM (fun M p =>
      p.1.foldlM (fun (M : Sparse R) k => if k < 1 then none else M.setAt? (p.2+1) k.toNat 0) M) M = some M' ∧
      Holds M' T' ∧ M'.nrow = M.nrow ∧ M'.ncol = M.ncol ∧ M'.editable = .pattern ∧ M'.solver = M.solver ∧
      (∀ r c, SpVal M' r c = 0) ∧
      (∀ k, k ∈ T'.map Prod.fst ↔ k ∈ T.map Prod.fst ∨ ∃ p ∈ ps, ∃ j ∈ p.1, k = (p.2+1, j.toNat)) := by
  induction ps with
  | nil => intro M T h he _ hz; exact ⟨M, T, rfl, h, rfl, rfl, he, rfl, hz, by simp⟩
  | cons p ps ih =>
    intro M T h he hp hz
    have hp0 := hp p List.mem_cons_self
    obtain ⟨M1, T1, m1, m2, m3, m4, m5, m6, m7, m8⟩ := setRow_spec (p.2+1) p.1 M T h he (by omega) (by omega) hp0.2 hz
    obtain ⟨M2, T2, g1, g2, g3, g4, g5, g6, g7, g8⟩ := ih M1 T1 m2 m5
      (by intro q hq; rw [m3, m4]; exact hp q (List.mem_cons_of_mem _ hq)) m7
    refine ⟨M2, T2, ?_, g2, by omega, by omega, g5, by rw [g6, m6], g7, ?_⟩
    · rw [List.foldlM_cons, m1]; exact g1
    · intro k'
      rw [g8, m8]
      constructor
      · rintro ((h | h) | ⟨j, hj, h⟩)
        · exact Or.inl h
        · exact Or.inr ⟨p, List.mem_cons_self, h⟩
        · exact Or.inr ⟨j, List.mem_cons_of_mem _ hj, h⟩
      · rintro (h | ⟨j, hj, h⟩)
        · exact Or.inl (Or.inl h)
        · rcases List.mem_cons.1 hj with rfl | hj
          · exact Or.inl (Or.inr h)
          · exact Or.inr ⟨j, hj, h⟩

omit [CommRing R] in
/-- Change of the edit mode between the two map-based states. -/
theorem holds_values {M : Sparse R} {T : VMap R} (h : Holds M T) (he : M.editable ≠ .locked) (ed : Editable) (hed : ed ≠ .locked) :
    Holds { M with editable := ed } T :=
  ⟨h.nodup, h.range, fun _ => h.edit he, fun hl => absurd hl hed⟩

/-- Pre-assembly yields a storage of zeros that takes the contributions of all elements. -/
theorem preAssemble_spec (hr : Ready s D) (hv : D.Valid) (M : Sparse R) (T : VMap R) (h : Holds M T)
    (he : M.editable = .pattern) (hrow : M.nrow = s.neq) (hcol : M.ncol = s.neq) (hz : ∀ r c, SpVal M r c = 0)
    (delay : Bool) (hd : delay = true ∨ M.colFormat = true) :
    ∃ M' T', M.preAssemble s delay = some M' ∧ Holds M' T' ∧ M'.nrow = s.neq ∧ M'.ncol = s.neq ∧
      M'.editable = (if delay then .values else .locked) ∧ M'.solver = M.solver ∧
      (∀ r c, SpVal M' r c = 0) ∧ ∀ iel, 1 ≤ iel → iel ≤ D.elems.length → Takes s D M' T' iel := by
  obtain ⟨dofc, c1, c2, c3, c4⟩ := getDofCouplings_spec hr hv
  have hrange : ∀ l ∈ dofc, ∀ k ∈ l, 1 ≤ k ∧ k ≤ s.neq := by
    intro l hl k hk
    obtain ⟨i, hi⟩ := List.mem_iff_getElem?.1 hl
    obtain ⟨iel, -, -, -, hc⟩ := (c4 i k).1 ⟨l, hi, hk⟩
    exact actsOn_range hr hv hc
  have htakes : ∀ iel, 1 ≤ iel → iel ≤ D.elems.length → ∀ r c, ActsOn s D iel r → ActsOn s D iel c →
      ∃ l, dofc[r.toNat-1]? = some l ∧ c ∈ l := by
    intro iel h1 h2 r c hr' hc'
    have hrr := actsOn_range hr hv hr'
    apply (c4 (r.toNat-1) c).2
    refine ⟨iel, h1, h2, ?_, hc'⟩
    rwa [show (((r.toNat-1 : Nat) : Int) + 1) = r by omega]
  have hne : M.editable ≠ .locked := by rw [he]; decide
  unfold preAssemble preAssemblePat
  rw [c1]
  simp only [Option.bind_eq_bind, Option.bind_some]
  rw [if_neg (by simp [he])]
  cases delay with
  | true =>
    rw [if_pos rfl]
    obtain ⟨M1, T1, g1, g2, g3, g4, g5, g6, g7, g8⟩ := setPat_spec (List.zipIdx dofc) M T h he (by
      intro p hp
      obtain ⟨l, i⟩ := p
      rw [List.mem_zipIdx_iff_getElem?] at hp
      refine ⟨?_, ?_⟩
      · have := (List.getElem?_eq_some_iff.1 hp).1; simp only; omega
      · intro k hk; rw [hcol]; exact hrange l (List.mem_of_getElem? hp) k hk) hz
    simp only [g1, Option.bind_some]
    have hne1 : M1.editable ≠ .locked := by rw [g5]; decide
    have key := holds_values g2 hne1 .values (by decide)
    refine ⟨_, T1, rfl, key, by simp only; omega, by simp only; omega, rfl, g6, ?_, ?_⟩
    · intro r c
      rw [spVal_spec key]
      have := g7 r c
      rwa [spVal_spec g2] at this
    · intro iel h1 h2
      right
      intro r c hr' hc'
      obtain ⟨l, hl, hcl⟩ := htakes iel h1 h2 r c hr' hc'
      have hrr := actsOn_range hr hv hr'
      rw [g8]
      right
      refine ⟨(l, r.toNat-1), ?_, c, hcl, ?_⟩
      · rw [List.mem_zipIdx_iff_getElem?]; exact hl
      · simp only [Prod.mk.injEq, and_true]; omega
  | false =>
    rw [if_neg (by decide)]
    have hcf : M.colFormat = true := by rcases hd with hd | hd; · cases hd
                                        · exact hd
    have hval := holds_values h hne .values (by decide)
    have hcf' : ({ M with editable := .values } : Sparse R).colFormat = true := hcf
    obtain ⟨M1, T1, g1, g2, g3, g4, g5, g6, g7⟩ := optimiseColsPat_spec hval (by simp) hcf' dofc (by simp only; omega) c3
      (by intro l hl k hk; have := hrange l hl k hk; simp only [hcol]; exact this)
    have hmatch : (match ({ M with editable := .values } : Sparse R).solver with
        | .superlu | .umfpack => ({ M with editable := .values } : Sparse R).optimiseColsPat dofc
        | .samg => ({ M with editable := .values } : Sparse R).optimiseRows
        | .none => some ({ M with editable := .values } : Sparse R)) =
        ({ M with editable := .values } : Sparse R).optimiseColsPat dofc := by
      unfold colFormat at hcf
      cases hs : M.solver <;> simp_all
    refine ⟨M1, T1, hmatch.trans g1, g2, by rw [g5]; exact hrow, by rw [g6]; exact hcol, g4, g7, ?_, ?_⟩
    · intro r c
      rw [spVal_spec g2]
      cases hf : VMap.find? T1 (r, c) with
      | none => rfl
      | some v =>
        have := (VMap.find?_eq_some g2.nodup).1 hf
        have := g3.mem_iff.1 this
        rw [mem_patEntries] at this
        rw [this.1]; rfl
    · intro iel h1 h2
      right
      intro r c hr' hc'
      obtain ⟨l, hl, hcl⟩ := htakes iel h1 h2 r c hr' hc'
      have hrr := actsOn_range hr hv hr'
      rw [(g3.map Prod.fst).mem_iff, List.mem_map]
      refine ⟨((r.toNat, c.toNat), 0), mem_patEntries.2 ⟨rfl, by omega, l, hl, c, hcl, rfl⟩, rfl⟩

end IFEM.Spec
