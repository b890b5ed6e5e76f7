import Verif.Model.SysMat
import Verif.Lemmas.SparseRounds
import Mathlib.Data.List.GetD
/-! Flags of non-zero equations. -/
namespace IFEM.SysMat
open IFEM.Spec IFEM.Sam
variable {R : Type} [CommRing R]

/-- Flag `r` (1-based) is set. -/
def Flag (f : List Bool) (r : Int) : Prop := at1? f r = some true

theorem set1?_flag (f : List Bool) (e : Int) (h1 : 1 ≤ e) (h2 : e ≤ f.length) :
    ∃ f', set1? f e true = some f' ∧ f'.length = f.length ∧ ∀ r, Flag f' r ↔ Flag f r ∨ r = e := by
  obtain ⟨n, rfl⟩ : ∃ n : Nat, e = (n : Int) + 1 := ⟨(e - 1).toNat, by omega⟩
  unfold set1? set0?
  rw [show (n : Int) + 1 - 1 = n by omega, Int.toNat_natCast, if_pos (by omega)]
  refine ⟨_, rfl, by simp, ?_⟩
  intro r
  unfold Flag at1? at0?
  by_cases hr : 0 ≤ r - 1
  · rw [if_pos hr, if_pos hr, List.getElem?_set]
    by_cases he : n = (r - 1).toNat
    · rw [if_pos he, if_pos (by omega)]
      have : r = (n : Int) + 1 := by omega
      simp [this]
    · rw [if_neg he]
      have : r ≠ (n : Int) + 1 := by omega
      simp [this]
  · rw [if_neg hr, if_neg hr]
    have : r ≠ (n : Int) + 1 := by omega
    simp [this]

theorem flagMasters (ts : List (Int × R)) : ∀ (f : List Bool), (∀ t ∈ ts, 1 ≤ t.1 ∧ t.1 ≤ f.length) →
    ∃ f', (ts.map some).foldlM (fun (f : List Bool) t => t.bind fun t => set1? f t.1 true) f = some f' ∧
      f'.length = f.length ∧ ∀ r, Flag f' r ↔ Flag f r ∨ ∃ t ∈ ts, t.1 = r := by
  induction ts with
  | nil => intro f _; exact ⟨f, rfl, rfl, by simp⟩
  | cons t ts ih =>
    intro f h
    obtain ⟨f1, h1, h2, h3⟩ := set1?_flag f t.1 (h t List.mem_cons_self).1 (h t List.mem_cons_self).2
    obtain ⟨f', g1, g2, g3⟩ := ih f1 (fun t' ht' => by rw [h2]; exact h t' (List.mem_cons_of_mem _ ht'))
    refine ⟨f', ?_, g2.trans h2, ?_⟩
    · rw [List.map_cons, List.foldlM_cons]
      simp only [Option.bind_eq_bind, Option.bind_some]
      rw [h1]
      exact g1
    · intro r
      rw [g3, h3]
      simp only [List.mem_cons, exists_eq_or_imp]
      rw [or_assoc, eq_comm (a := r)]

variable {s : Sam R} {D : FEModel R}

theorem flagStep_spec (hr : Ready s D) (hv : D.Valid) {o : Option Nat}
    (ho : ∀ d, o = some d → 1 ≤ d ∧ d ≤ D.status.length) (f : List Bool) (hf : f.length = s.neq) :
    ∃ f', flagStep s f (eqvO s o) = some f' ∧ f'.length = f.length ∧
      ∀ r, Flag f' r ↔ Flag f r ∨ r ∈ eqsOf (tmOf s D) (eqvO s o) := by
  unfold flagStep
  have hle := eqvO_le hr hv ho
  rw [if_neg (by omega)]
  by_cases hn : eqvO s o < 0
  · rw [if_pos hn]
    obtain ⟨h1, -, h3⟩ := tm_facts hr hv ho hn
    rw [h1]
    obtain ⟨f', g1, g2, g3⟩ := flagMasters (tmOf s D (eqvO s o)) f (by rw [hf]; exact h3)
    refine ⟨f', g1, g2, ?_⟩
    intro r
    rw [g3, mem_eqsOf_neg hn]
  · rw [if_neg hn]
    by_cases hp : eqvO s o > 0
    · rw [if_pos hp]
      obtain ⟨f', g1, g2, g3⟩ := set1?_flag f (eqvO s o) (by omega) (by omega)
      refine ⟨f', g1, g2, ?_⟩
      intro r
      rw [g3, mem_eqsOf_pos hp]
    · rw [if_neg hp]
      refine ⟨f, rfl, rfl, ?_⟩
      intro r
      have := not_mem_eqsOf (r := r) (tm := tmOf s D) hp hn
      simp [this]

theorem flagLoop (hr : Ready s D) (hv : D.Valid) (os : List (Option Nat)) : ∀ (f : List Bool),
    (∀ o ∈ os, ∀ d, o = some d → 1 ≤ d ∧ d ≤ D.status.length) → f.length = s.neq →
    ∃ f', (os.map (eqvO s)).foldlM (flagStep s) f = some f' ∧ f'.length = f.length ∧
      ∀ r, Flag f' r ↔ Flag f r ∨ ∃ x ∈ os.map (eqvO s), r ∈ eqsOf (tmOf s D) x := by
  induction os with
  | nil => intro f _ _; exact ⟨f, rfl, rfl, by simp⟩
  | cons o os ih =>
    intro f ho hf
    obtain ⟨f1, h1, h2, h3⟩ := flagStep_spec hr hv (ho o List.mem_cons_self) f hf
    obtain ⟨f', g1, g2, g3⟩ := ih f1 (fun o' h' => ho o' (List.mem_cons_of_mem _ h')) (h2.trans hf)
    refine ⟨f', ?_, g2.trans h2, ?_⟩
    · rw [List.map_cons, List.foldlM_cons, h1]; exact g1
    · intro r
      rw [g3, h3]
      simp only [List.map_cons, List.mem_cons, exists_eq_or_imp]
      rw [or_assoc]

theorem isEmpty_dofs {e : Elem R} (h : ElemFits D e) (he : e.eK.isEmpty) : D.dofsOf e.iel = [] := by
  have h1 := h.mat.wf
  unfold Mat.WF at h1
  unfold Mat.isEmpty at he
  rw [h.mat.row, h.mat.col, List.isEmpty_iff.1 he] at h1
  have : (D.elmDofs (D.nodesOf e.iel)).length = 0 := by simpa using h1.symm
  exact List.length_eq_zero_iff.1 this

theorem flagElm_spec (hr : Ready s D) (hv : D.Valid) {e : Elem R} (h : ElemFits D e) (f : List Bool)
    (hf : f.length = s.neq) (hn : 2 ≤ s.neq) :
    ∃ f', flagElm s f e = some f' ∧ f'.length = f.length ∧ ∀ r, Flag f' r ↔ Flag f r ∨ ActsOn s D e.iel r := by
  unfold flagElm
  by_cases he : e.eK.isEmpty
  · rw [if_pos he]
    refine ⟨f, rfl, rfl, ?_⟩
    intro r
    have : ¬ ActsOn s D e.iel r := by
      rintro ⟨d, hd, -⟩
      rw [isEmpty_dofs h he] at hd
      cases hd
    simp [this]
  · rw [if_neg he, ← iel_cast h]
    rw [getElmEqns_ready hr hv (nodesOf_get h) e.eK.nrow (Or.inr (Or.inr h.mat.row))]
    simp only [Option.bind_eq_bind, Option.bind_some]
    unfold flagEqs
    rw [if_neg (by omega)]
    obtain ⟨f', g1, g2, g3⟩ := flagLoop hr hv (D.elmDofs (D.nodesOf e.iel)) f
      (fun o ho => dofs_ok hv (nodesOf_mem h) o ho) hf
    refine ⟨f', g1, g2, ?_⟩
    intro r
    rw [g3, actsOn_iff hr hv (nodesOf_mem h)]
    rfl

theorem assembleAll_flags {M : Type} (hr : Ready s D) (hv : D.Valid) (hn : 2 ≤ s.neq)
    (asm : M × List R → Elem R → Option (M × List R)) (es : List (Elem R)) :
    ∀ (st st' : M × List R) (f : List Bool), f.length = s.neq → (∀ e ∈ es, ElemFits D e) → es.foldlM asm st = some st' →
    ∃ f', SysMat.assembleAll s asm (st, f) es = some (st', f') ∧ f'.length = s.neq ∧
      ∀ r, Flag f' r ↔ Flag f r ∨ ∃ e ∈ es, ActsOn s D e.iel r := by
  induction es with
  | nil =>
    intro st st' f hf _ h
    cases h
    exact ⟨f, rfl, hf, by simp⟩
  | cons e es ih =>
    intro st st' f hf hes h
    rw [List.foldlM_cons] at h
    cases ha : asm st e with
    | none => rw [ha] at h; cases h
    | some st1 =>
      rw [ha] at h
      obtain ⟨f1, h1, h2, h3⟩ := flagElm_spec hr hv (hes e List.mem_cons_self) f hf hn
      obtain ⟨f', g1, g2, g3⟩ := ih st1 st' f1 (h2.trans hf) (fun e' h' => hes e' (List.mem_cons_of_mem _ h')) h
      refine ⟨f', ?_, g2, ?_⟩
      · unfold SysMat.assembleAll at g1 ⊢
        rw [List.foldlM_cons]
        simp only [ha, h1, Option.bind_eq_bind, Option.bind_some]
        exact g1
      · intro r
        rw [g3, h3]
        simp only [List.mem_cons, exists_eq_or_imp]
        rw [or_assoc]

theorem initFlags_flag (n : Nat) (r : Int) : ¬ Flag (initFlags n) r := by
  unfold Flag initFlags at1? at0?
  split
  · rw [List.getElem?_replicate]; split <;> simp
  · simp

theorem isZero_false {n : Nat} (hn : 1 ≤ n) {f : List Bool} : isZero n f = false ↔ ∃ r, Flag f r := by
  unfold isZero
  rw [if_neg (by omega)]
  rw [List.all_eq_false]
  constructor
  · rintro ⟨x, hx, h⟩
    obtain ⟨k, hk⟩ := List.mem_iff_getElem?.1 hx
    refine ⟨(k : Int) + 1, ?_⟩
    unfold Flag at1?
    rw [show (k : Int) + 1 - 1 = k by omega, at0?_natCast, hk]
    simp at h
    rw [h]
  · rintro ⟨r, h⟩
    unfold Flag at1? at0? at h
    split at h
    · exact ⟨true, List.mem_of_getElem? h, by simp⟩
    · cases h

theorem flag_nat (f : List Bool) (i : Nat) (h : 1 ≤ i) : Flag f i ↔ f[i - 1]? = some true := by
  unfold Flag
  rw [at1?_nat f i h]

open Classical in
/-- The loop of `endAssembly`, for any storage type. -/
theorem endLoop {M : Type} (addD : M → R → Int → Option M) (Inv : M → Prop) (V : M → Nat → Nat → R) (f0 : List Bool)
    (hlen : 2 ≤ f0.length)
    (hadd : ∀ i : Nat, 1 ≤ i → i ≤ f0.length → ¬ Flag f0 i → ∀ m, Inv m → ∃ m', addD m (10 ^ 9) i = some m' ∧ Inv m' ∧
      ∀ r c, V m' r c = V m r c + if r = c ∧ r = i then 10 ^ 9 else 0) :
    ∀ (k a : Nat) (m : M) (f : List Bool), 1 ≤ a → a + k = f0.length + 1 → Inv m → f.length = f0.length →
    (∀ r : Nat, a ≤ r → (Flag f r ↔ Flag f0 r)) → (∀ r : Nat, 1 ≤ r → r < a → Flag f r) →
    ∃ m' f', (List.range' a k).foldlM (fun (st : M × List Bool) (i : Nat) =>
      match st.2[i - 1]? with
      | none => none
      | some true => some st
      | some false => do
        let m ← addD st.1 (10 ^ 9) i
        let f ← flagEq st.2 i
        return (m, f)) (m, f) = some (m', f') ∧ Inv m' ∧ f'.length = f0.length ∧
      (∀ r : Nat, 1 ≤ r → r ≤ f0.length → Flag f' r) ∧
      ∀ r c, V m' r c = V m r c + if r = c ∧ a ≤ r ∧ r ≤ f0.length ∧ ¬ Flag f0 r then 10 ^ 9 else 0 := by
  intro k
  induction k with
  | zero =>
    intro a m f h1 h2 hI hf hge hlt
    refine ⟨m, f, rfl, hI, hf, fun r h3 h4 => hlt r h3 (by omega), ?_⟩
    intro r c
    rw [if_neg (by omega), add_zero]
  | succ k ih =>
    intro a m f h1 h2 hI hf hge hlt
    rw [List.range'_succ, List.foldlM_cons]
    have hin : a - 1 < f.length := by omega
    have hfa : Flag f a ↔ f[a - 1]? = some true := flag_nat f a h1
    by_cases hfl : Flag f a
    · rw [hfa.1 hfl]
      simp only [Option.bind_eq_bind, Option.bind_some]
      obtain ⟨m', f', g1, g2, g3, g4, g5⟩ := ih (a + 1) m f (by omega) (by omega) hI hf
        (fun r hr => hge r (by omega)) (fun r h3 h4 => by
          by_cases he : r = a
          · rw [he]; exact hfl
          · exact hlt r h3 (by omega))
      refine ⟨m', f', g1, g2, g3, g4, ?_⟩
      intro r c
      rw [g5]
      congr 1
      by_cases he : r = a
      · subst he
        rw [if_neg (by omega), if_neg]
        rintro ⟨-, -, -, h⟩
        exact h ((hge r (le_refl _)).1 hfl)
      · have : (r = c ∧ a + 1 ≤ r ∧ r ≤ f0.length ∧ ¬ Flag f0 r) ↔ (r = c ∧ a ≤ r ∧ r ≤ f0.length ∧ ¬ Flag f0 r) := by
          constructor
          · rintro ⟨x, y, z⟩; exact ⟨x, by omega, z⟩
          · rintro ⟨x, y, z⟩; exact ⟨x, by omega, z⟩
        simp only [this]
    · have hfalse : f[a - 1]? = some false := by
        rw [List.getElem?_eq_getElem hin]
        rw [hfa, List.getElem?_eq_getElem hin] at hfl
        cases hb : f[a - 1]
        · rfl
        · rw [hb] at hfl; exact absurd rfl hfl
      rw [hfalse]
      have hf0 : ¬ Flag f0 a := fun h => hfl ((hge a (le_refl _)).2 h)
      obtain ⟨m1, k1, k2, k3⟩ := hadd a h1 (by omega) hf0 m hI
      obtain ⟨f1, q1, q2, q3⟩ := set1?_flag f a (by omega) (by omega)
      have hflag : flagEq f (a : Int) = some f1 := by
        unfold flagEq
        rw [if_neg (by omega), if_neg (by omega), if_neg (by omega), q1]
      simp only [Option.bind_eq_bind, k1, hflag, Option.bind_some]
      obtain ⟨m', f', g1, g2, g3, g4, g5⟩ := ih (a + 1) m1 f1 (by omega) (by omega) k2 (q2.trans hf)
        (fun r hr => by
          rw [q3]
          have : (r : Int) ≠ a := by omega
          rw [← hge r (by omega)]
          simp only [this, or_false])
        (fun r h3 h4 => by
          rw [q3]
          by_cases he : r = a
          · right; rw [he]
          · left; exact hlt r h3 (by omega))
      refine ⟨m', f', g1, g2, g3, g4, ?_⟩
      intro r c
      rw [g5, k3]
      by_cases he : r = a
      · subst he
        rw [if_neg (by omega : ¬ (r = c ∧ r + 1 ≤ r ∧ r ≤ f0.length ∧ ¬ Flag f0 r)), add_zero]
        congr 1
        by_cases hc : r = c
        · rw [if_pos ⟨hc, rfl⟩, if_pos ⟨hc, le_refl _, by omega, hf0⟩]
        · rw [if_neg (fun h => hc h.1), if_neg (fun h => hc h.1)]
      · rw [if_neg (fun h => he h.2), add_zero]
        congr 1
        have : (r = c ∧ a + 1 ≤ r ∧ r ≤ f0.length ∧ ¬ Flag f0 r) ↔ (r = c ∧ a ≤ r ∧ r ≤ f0.length ∧ ¬ Flag f0 r) := by
          constructor
          · rintro ⟨x, y, z⟩; exact ⟨x, by omega, z⟩
          · rintro ⟨x, y, z⟩; exact ⟨x, by omega, z⟩
        simp only [this]

open Classical in
theorem end_spec {M : Type} (dim : M → Nat) (addD : M → R → Int → Option M) (Inv : M → Prop) (V : M → Nat → Nat → R)
    (m : M) (f : List Bool) (hlen : 2 ≤ f.length) (hdim : 1 ≤ dim m) (hI : Inv m)
    (hadd : ∀ i : Nat, 1 ≤ i → i ≤ f.length → ¬ Flag f i → ∀ m, Inv m → ∃ m', addD m (10 ^ 9) i = some m' ∧ Inv m' ∧
      ∀ r c, V m' r c = V m r c + if r = c ∧ r = i then 10 ^ 9 else 0) :
    (¬ (∃ r, Flag f r) → endAssembly dim addD (m, f) = some (m, f)) ∧
    ((∃ r, Flag f r) → ∃ m' f', endAssembly dim addD (m, f) = some (m', f') ∧ Inv m' ∧ f'.length = f.length ∧
      (∀ r : Nat, 1 ≤ r → r ≤ f.length → Flag f' r) ∧
      ∀ r c, V m' r c = V m r c + if r = c ∧ 1 ≤ r ∧ r ≤ f.length ∧ ¬ Flag f r then 10 ^ 9 else 0) := by
  unfold endAssembly
  constructor
  · intro h
    rw [if_neg]
    rintro ⟨-, h2⟩
    exact h ((isZero_false hdim).1 h2)
  · intro h
    rw [if_pos ⟨by dsimp only; omega, (isZero_false hdim).2 h⟩]
    exact endLoop addD Inv V f hlen hadd f.length 1 m f (le_refl _) (by omega) hI rfl (fun _ _ => Iff.rfl)
      (fun r h1 h2 => by omega)

/-! ## Untouched equations have no coefficients -/

theorem Tc_zero {iel : Nat} (hr : Ready s D) (hv : D.Valid) (hi : D.nodesOf iel ∈ D.elems) {r : Int} (h : ¬ ActsOn s D iel r)
    (i : Fin (D.dofsOf iel).length) : Tc s D (D.dofsOf iel)[i] r = 0 := by
  rw [actsOn_iff hr hv hi] at h
  have h : r ∉ eqsOf (tmOf s D) (eqvO s (D.dofsOf iel)[i]) := fun h' => h ⟨_, List.mem_map.2 ⟨_, List.getElem_mem i.2, rfl⟩, h'⟩
  unfold Tc tcoef
  by_cases hp : eqvO s (D.dofsOf iel)[i] > 0
  · rw [mem_eqsOf_pos hp] at h
    rw [if_pos hp, if_neg (Ne.symm h)]
  · rw [if_neg hp]
    by_cases hn : eqvO s (D.dofsOf iel)[i] < 0
    · rw [mem_eqsOf_neg hn] at h
      rw [if_pos (by omega)]
      apply List.sum_eq_zero
      intro x hx
      obtain ⟨t, ht, rfl⟩ := List.mem_map.1 hx
      rw [if_neg (fun h' => h ⟨t, ht, h'⟩)]
    · rw [if_neg (by omega)]

theorem elmK_zero {e : Elem R} (hr : Ready s D) (hv : D.Valid) (he : ElemFits D e) {r : Int} (h : ¬ ActsOn s D e.iel r) (c : Int) :
    elmK s D e r c = 0 ∧ elmK s D e c r = 0 ∧ elmB s D e r = 0 := by
  have hz := Tc_zero hr hv (nodesOf_mem he) h
  unfold elmK elmB
  refine ⟨?_, ?_, ?_⟩
  · apply Finset.sum_eq_zero; intro i _
    apply Finset.sum_eq_zero; intro j _
    rw [hz i]; ring
  · apply Finset.sum_eq_zero; intro i _
    apply Finset.sum_eq_zero; intro j _
    rw [hz j]; ring
  · rw [Finset.sum_eq_zero (fun i _ => by rw [hz i]; ring), Finset.sum_eq_zero, sub_zero]
    intro i _
    apply Finset.sum_eq_zero; intro j _
    rw [hz i]; ring

end IFEM.SysMat
