import Verif.Lemmas.SamPatchElm
import Verif.Props.MpcChains
import Mathlib.Tactic.LinearCombination
/-! Tables built from patches: constraint equations. -/
namespace IFEM.Spec
open IFEM.Props
variable {K : Type}

/-! ## DOF numbers -/

/-- The DOF exists. -/
def OkDof (cs : List Nat) (k : Int × Int) : Prop := 1 ≤ k.1 ∧ k.1 ≤ cs.length ∧ 1 ≤ k.2 ∧ k.2 ≤ cs.getD (k.1.toNat - 1) 0

/-- Its number. -/
def dofIx (cs : List Nat) (k : Int × Int) : Nat := firstOf cs k.1.toNat + k.2.toNat - 1

theorem okDof_nat {cs : List Nat} {k : Int × Int} (h : OkDof cs k) :
    1 ≤ k.1.toNat ∧ k.1.toNat ≤ cs.length ∧ 1 ≤ k.2.toNat ∧ k.2.toNat ≤ cs.getD (k.1.toNat - 1) 0 := by
  obtain ⟨a, b, c, d⟩ := h
  exact ⟨by omega, by omega, by omega, by omega⟩

theorem firstOf_pos (cs : List Nat) (n : Nat) : 1 ≤ firstOf cs n := by unfold firstOf; omega

theorem dofNo_ok {cs : List Nat} {k : Int × Int} (h : OkDof cs k) : dofNo (accumulate 1 cs) k = some (dofIx cs k : Int) := by
  obtain ⟨a, b, c, d⟩ := h
  unfold dofNo
  have := accumulate_at cs k.1.toNat (by omega) (by omega)
  rw [Int.toNat_of_nonneg (by omega)] at this
  rw [this, Option.map_some]
  unfold dofIx
  have := firstOf_pos cs k.1.toNat
  congr 1; omega

theorem dofIx_range {cs : List Nat} {k : Int × Int} (h : OkDof cs k) : 1 ≤ dofIx cs k ∧ dofIx cs k ≤ cs.sum := by
  have h' := okDof_nat h
  have := dof_le cs k.1.toNat k.2.toNat h'
  unfold dofIx; omega

theorem dofIx_inj {cs : List Nat} {k k' : Int × Int} (h : OkDof cs k) (h' : OkDof cs k') (e : dofIx cs k = dofIx cs k') : k = k' := by
  have a := okDof_nat h
  have a' := okDof_nat h'
  unfold dofIx at e
  have := firstOf_pos cs k.1.toNat
  have := firstOf_pos cs k'.1.toNat
  obtain ⟨e1, e2⟩ := dof_inj cs _ _ _ _ a a' (by omega)
  obtain ⟨b1, -, b2, -⟩ := h
  obtain ⟨b1', -, b2', -⟩ := h'
  exact Prod.ext (by omega) (by omega)

theorem dofIx_surj (cs : List Nat) (d : Nat) (h1 : 1 ≤ d) (h2 : d ≤ cs.sum) : ∃ k, OkDof cs k ∧ dofIx cs k = d := by
  obtain ⟨n, c, ⟨a1, a2, a3, a4⟩, e⟩ := dof_surj cs d h1 h2
  refine ⟨((n : Int), (c : Int)), ⟨?_, ?_, ?_, ?_⟩, ?_⟩
  · dsimp only; omega
  · dsimp only; omega
  · dsimp only; omega
  · dsimp only; rw [Int.toNat_natCast]; omega
  · unfold dofIx; dsimp only; rw [Int.toNat_natCast, Int.toNat_natCast]; exact e.symm

/-! ## Resolving -/

variable [Field K] [LinearOrder K]

/-- The constraints can be resolved: DOFs exist, slaves are unique, the chain pointers are set for exactly those masters which are slaves, there are no cycles,
and such masters are not fixed. -/
structure CeqOk (cs : List Nat) (msc0 : List Int) (H : List (Mpc K)) (rank : Int × Int → Nat) : Prop where
  len    : msc0.length = cs.sum
  code   : ∀ c ∈ msc0, c = 0 ∨ c = 1
  slave  : ∀ m ∈ H, OkDof cs m.key
  master : ∀ m ∈ H, ∀ t ∈ m.master, OkDof cs t.key
  uniq   : (H.map Mpc.key).Nodup
  link   : ∀ m ∈ H, ∀ t ∈ m.master, (t.nextc = true ↔ IsSlave H t.key)
  rank   : ∀ m ∈ H, ∀ t ∈ m.master, IsSlave H t.key → rank t.key < rank m.key
  free   : ∀ m ∈ H, ∀ t ∈ m.master, IsSlave H t.key → at1? msc0 (dofIx cs t.key) = some 1

theorem foldlM_congr' {α β : Type} (f g : α → β → Option α) (l : List β) (h : ∀ b ∈ l, ∀ a, f a b = g a b) (a : α) : l.foldlM f a = l.foldlM g a := by
  induction l generalizing a with
  | nil => rfl
  | cons b l ih =>
    rw [List.foldlM_cons, List.foldlM_cons, h b (by simp)]
    congr 1
    funext a'
    exact ih (fun b' hb => h b' (List.mem_cons_of_mem _ hb)) a'

theorem resolveTerm_congr {cs : List Nat} {msc0 msc : List Int} {H : List (Mpc K)} {rank : Int × Int → Nat} (hc : CeqOk cs msc0 H rank)
    (ha : ∀ k, OkDof cs k → ¬ IsSlave H k → at1? msc (dofIx cs k) = at1? msc0 (dofIx cs k)) (f : Nat) :
    ∀ m ∈ H, ∀ t ∈ m.master, ∀ scale acc, resolveTerm (accumulate 1 cs) msc H f t scale acc = resolveTerm (accumulate 1 cs) msc0 H f t scale acc := by
  induction f with
  | zero => intros; rfl
  | succ f ih =>
    intro m hm t ht scale acc
    have hok := hc.master m hm t ht
    have hl := hc.link m hm t ht
    simp only [resolveTerm, dofNo_ok hok]
    by_cases hn : t.nextc = true
    · rw [if_pos hn, if_pos hn]
      cases hf : findSlave t.key H with
      | none => rfl
      | some c =>
        dsimp only
        exact foldlM_congr' _ _ _ (fun t' ht' a => ih c (findSlave_mem _ _ _ hf).1 t' ht' _ a) _
    · rw [if_neg hn, if_neg hn, ha t.key hok (fun h => hn (hl.mpr h))]

/-- Value of the resolved terms. -/
def evalTerms (u : Nat → K) (B : List (Int × K)) : K := (B.map fun q => q.2 * u q.1.toNat).sum

omit [LinearOrder K] in
theorem evalTerms_append (u : Nat → K) (A B : List (Int × K)) : evalTerms u (A ++ B) = evalTerms u A + evalTerms u B := by
  unfold evalTerms; rw [List.map_append, List.sum_append]

/-- Terms for free DOFs. -/
def FreeTerms (cs : List Nat) (msc0 : List Int) (H : List (Mpc K)) (B : List (Int × K)) : Prop :=
  ∀ q ∈ B, ∃ k, OkDof cs k ∧ ¬ IsSlave H k ∧ q.1 = (dofIx cs k : Int) ∧ at1? msc0 (dofIx cs k) = some 1

omit [LinearOrder K] in
theorem foldTerms (cs : List Nat) (msc0 : List Int) (H : List (Mpc K)) (g : K × List (Int × K) → MTerm K → Option (K × List (Int × K))) (C : K → (Nat → K) → Prop)
    (scale : K) (l : List (MTerm K))
    (h : ∀ t ∈ l, ∀ acc, ∃ A B, g acc t = some (acc.1 + A, acc.2 ++ B) ∧ FreeTerms cs msc0 H B ∧
      ∀ lam u, C lam u → lam * A + evalTerms u B = scale * t.coeff * u (dofIx cs t.key)) (acc : K × List (Int × K)) :
    ∃ A B, l.foldlM g acc = some (acc.1 + A, acc.2 ++ B) ∧ FreeTerms cs msc0 H B ∧
      ∀ lam u, C lam u → lam * A + evalTerms u B = scale * masterSum (fun k => u (dofIx cs k)) l := by
  induction l generalizing acc with
  | nil =>
    refine ⟨0, [], ?_, ?_, ?_⟩
    · simp
    · intro q hq; cases hq
    · intro lam u _; simp [evalTerms, masterSum]
  | cons t l ih =>
    obtain ⟨A, B, e, fB, v⟩ := h t (by simp) acc
    obtain ⟨A', B', e', fB', v'⟩ := ih (fun t' ht' => h t' (List.mem_cons_of_mem _ ht')) (acc.1 + A, acc.2 ++ B)
    refine ⟨A + A', B ++ B', ?_, ?_, ?_⟩
    · rw [List.foldlM_cons, e]
      have : l.foldlM g (acc.1 + A, acc.2 ++ B) = some (acc.1 + (A + A'), acc.2 ++ (B ++ B')) := by
        rw [e']; congr 1; dsimp only; rw [add_assoc, List.append_assoc]
      exact this
    · intro q hq
      rcases List.mem_append.mp hq with hq | hq
      · exact fB q hq
      · exact fB' q hq
    · intro lam u hu
      have e1 := v lam u hu
      have e2 := v' lam u hu
      rw [evalTerms_append]
      have : masterSum (fun k => u (dofIx cs k)) (t :: l) = t.coeff * u (dofIx cs t.key) + masterSum (fun k => u (dofIx cs k)) l := by
        unfold masterSum; rw [List.map_cons, List.sum_cons]; rfl
      rw [this]
      linear_combination e1 + e2

/-- The field vanishes at the fixed DOFs. -/
def ZeroAt (cs : List Nat) (msc0 : List Int) (u : Nat → K) : Prop := ∀ k, OkDof cs k → at1? msc0 (dofIx cs k) = some 0 → u (dofIx cs k) = 0

/-- The constraint of slave `k` holds unless the slave is fixed. -/
def HoldsAt (cs : List Nat) (msc0 : List Int) (H : List (Mpc K)) (lam : K) (u : Nat → K) (k : Int × Int) : Prop :=
  ∀ c ∈ H, c.key = k → at1? msc0 (dofIx cs k) = some 1 → HoldsScaled lam c fun k => u (dofIx cs k)

theorem resolveTerm_spec {cs : List Nat} {msc0 : List Int} {H : List (Mpc K)} {rank : Int × Int → Nat} (hc : CeqOk cs msc0 H rank) (f : Nat) :
    ∀ m ∈ H, ∀ t ∈ m.master, 1 ≤ f → (IsSlave H t.key → rank t.key + 2 ≤ f) → ∀ scale acc,
    ∃ A B, resolveTerm (accumulate 1 cs) msc0 H f t scale acc = some (acc.1 + A, acc.2 ++ B) ∧ FreeTerms cs msc0 H B ∧
      ∀ lam u, (ZeroAt cs msc0 u ∧ ∀ k, IsSlave H t.key → rank k ≤ rank t.key → HoldsAt cs msc0 H lam u k) →
        lam * A + evalTerms u B = scale * t.coeff * u (dofIx cs t.key) := by
  induction f with
  | zero => intro m hm t ht h; omega
  | succ f ih =>
    intro m hm t ht _ hf scale acc
    have hok := hc.master m hm t ht
    have hl := hc.link m hm t ht
    simp only [resolveTerm, dofNo_ok hok]
    by_cases hn : t.nextc = true
    · rw [if_pos hn]
      have hs := hl.mp hn
      have hf' := hf hs
      obtain ⟨c, hcH, hck⟩ := hs
      have hfind : findSlave t.key H = some c := (findSlave_some _ _ hc.uniq c).mpr ⟨hcH, hck⟩
      rw [hfind]
      dsimp only
      have hs : IsSlave H t.key := ⟨c, hcH, hck⟩
      have hck' : c.key = t.key := hck
      obtain ⟨A, B, e, fB, v⟩ := foldTerms cs msc0 H (fun acc t' => resolveTerm (accumulate 1 cs) msc0 H f t' (scale * t.coeff) acc)
        (fun lam u => ZeroAt cs msc0 u ∧ ∀ k, rank k < rank t.key → HoldsAt cs msc0 H lam u k) (scale * t.coeff) c.master (by
          intro t' ht' acc'
          have hr := hc.rank c hcH t' ht'
          rw [hck'] at hr
          obtain ⟨A, B, e, fB, v⟩ := ih c hcH t' ht' (by omega) (fun h => by have := hr h; omega) (scale * t.coeff) acc'
          refine ⟨A, B, e, fB, ?_⟩
          rintro lam u ⟨z, hh⟩
          exact v lam u ⟨z, fun k h1 h2 => hh k (by have := hr h1; omega)⟩) (acc.1 + c.c0 * (scale * t.coeff), acc.2)
      refine ⟨c.c0 * (scale * t.coeff) + A, B, ?_, fB, ?_⟩
      · rw [e]; congr 1; dsimp only; rw [add_assoc]
      · rintro lam u ⟨z, hh⟩
        have e1 := v lam u ⟨z, fun k h => hh k hs (by omega)⟩
        have e2 := hh t.key hs le_rfl c hcH hck' (hc.free m hm t ht hs)
        have e3 : u (dofIx cs t.key) = lam * c.c0 + masterSum (fun k => u (dofIx cs k)) c.master := by
          have : u (dofIx cs c.key) = _ := e2
          rwa [hck'] at this
        rw [e3]
        linear_combination e1
    · rw [if_neg hn]
      have hlt := dofIx_range hok
      obtain ⟨x, hx⟩ : ∃ x, at1? msc0 (dofIx cs t.key) = some x := by
        rw [at1?_nat _ _ hlt.1]
        exact ⟨_, List.getElem?_eq_getElem (by rw [hc.len]; omega)⟩
      have hx01 : x = 0 ∨ x = 1 := by
        rw [at1?_nat _ _ hlt.1] at hx
        exact hc.code x (List.mem_of_getElem? hx)
      rw [hx]
      dsimp only
      rcases hx01 with rfl | rfl
      · rw [if_neg (by omega)]
        refine ⟨0, [], by simp, (fun q hq => nomatch hq), ?_⟩
        rintro lam u ⟨z, -⟩
        rw [z t.key hok hx]; simp [evalTerms]
      · rw [if_pos (by omega)]
        refine ⟨0, [((dofIx cs t.key : Int), t.coeff * scale)], by simp, ?_, ?_⟩
        · intro q hq
          rw [List.mem_singleton] at hq
          subst hq
          exact ⟨t.key, hok, fun h => hn (hl.mpr h), rfl, hx⟩
        · rintro lam u -
          simp only [evalTerms, List.map_cons, List.map_nil, List.sum_cons, List.sum_nil, Int.toNat_natCast]; ring

/-- The resolved constraint. -/
def resolvedOf (cs : List Nat) (msc0 : List Int) (H : List (Mpc K)) (f : Nat) (m : Mpc K) : K × List (Int × K) :=
  (m.master.foldlM (fun acc t => resolveTerm (accumulate 1 cs) msc0 H f t 1 acc) (m.c0, [])).getD (0, [])

theorem resolvedOf_spec {cs : List Nat} {msc0 : List Int} {H : List (Mpc K)} {rank : Int × Int → Nat} (hc : CeqOk cs msc0 H rank) (f : Nat) (h1 : 1 ≤ f)
    (hf : ∀ m ∈ H, rank m.key + 2 ≤ f) (m : Mpc K) (hm : m ∈ H) :
    m.master.foldlM (fun acc t => resolveTerm (accumulate 1 cs) msc0 H f t 1 acc) (m.c0, []) = some (resolvedOf cs msc0 H f m) ∧
    FreeTerms cs msc0 H (resolvedOf cs msc0 H f m).2 ∧
    ∀ lam u, (ZeroAt cs msc0 u ∧ ∀ k, rank k < rank m.key → HoldsAt cs msc0 H lam u k) →
      lam * (resolvedOf cs msc0 H f m).1 + evalTerms u (resolvedOf cs msc0 H f m).2 = lam * m.c0 + masterSum (fun k => u (dofIx cs k)) m.master := by
  obtain ⟨A, B, e, fB, v⟩ := foldTerms cs msc0 H (fun acc t' => resolveTerm (accumulate 1 cs) msc0 H f t' 1 acc)
    (fun lam u => ZeroAt cs msc0 u ∧ ∀ k, rank k < rank m.key → HoldsAt cs msc0 H lam u k) 1 m.master (by
      intro t ht acc
      have hr := hc.rank m hm t ht
      obtain ⟨A, B, e, fB, v⟩ := resolveTerm_spec hc f m hm t ht h1 (by
        rintro ⟨c, hcH, hck⟩
        have : c.key = t.key := hck
        rw [← this]; exact hf c hcH) 1 acc
      refine ⟨A, B, e, fB, ?_⟩
      rintro lam u ⟨z, hh⟩
      exact v lam u ⟨z, fun k h1 h2 => hh k (by have := hr h1; omega)⟩) (m.c0, [])
  have er : resolvedOf cs msc0 H f m = (m.c0 + A, B) := by
    unfold resolvedOf; rw [e]; simp
  rw [er]
  refine ⟨by rw [e]; simp, fB, ?_⟩
  intro lam u hu
  have := v lam u hu
  dsimp only
  linear_combination this

/-! ## The loop over the constraints -/

/-- The constraint given to the equation solver. -/
def conOf (cs : List Nat) (msc0 : List Int) (H : List (Mpc K)) (f : Nat) (m : Mpc K) : Con K :=
  ⟨dofIx cs m.key, (resolvedOf cs msc0 H f m).1, (resolvedOf cs msc0 H f m).2.map fun q => (q.1.toNat, q.2)⟩

/-- Content of the tables after processing some constraints. -/
structure CeqInv (cs : List Nat) (msc0 : List Int) (H : List (Mpc K)) (a : CeqState K) (C : List (Con K)) (done : Int × Int → Prop) : Prop where
  mp   : a.mpmceq = accumulate 1 (C.map fun c => 1 + c.masters.length)
  mm   : a.mmceq = C.flatMap fun c => (c.slave : Int) :: c.masters.map fun q => (q.1 : Int)
  tt   : a.ttcc = C.flatMap fun c => c.offset :: c.masters.map fun q => q.2
  len  : a.msc.length = cs.sum
  sub  : ∀ k, done k → IsSlave H k
  old  : ∀ k, OkDof cs k → ¬ done k → at1? a.msc (dofIx cs k) = at1? msc0 (dofIx cs k)
  fix  : ∀ k, OkDof cs k → done k → at1? msc0 (dofIx cs k) = some 0 → at1? a.msc (dofIx cs k) = some 0
  neg  : ∀ k, OkDof cs k → done k → at1? msc0 (dofIx cs k) = some 1 → ∃ v < 0, at1? a.msc (dofIx cs k) = some v

theorem at1?_set_nat (msc : List Int) (d : Nat) (h1 : 1 ≤ d) (h2 : d ≤ msc.length) (v : Int) :
    ∃ msc', set1? msc d v = some msc' ∧ msc'.length = msc.length ∧ ∀ d' : Nat, 1 ≤ d' → at1? msc' d' = if d' = d then some v else at1? msc d' := by
  unfold set1? set0?
  rw [if_pos (by omega)]
  refine ⟨_, rfl, by simp, ?_⟩
  intro d' h'
  rw [at1?_nat _ _ h', at1?_nat _ _ h', show (((d : Nat) : Int) - 1).toNat = d - 1 by omega, List.getElem?_set]
  by_cases e : d' = d
  · rw [if_pos (by omega), if_pos e, if_pos (by omega)]
  · rw [if_neg (by omega), if_neg e]

theorem ceqStep_spec {cs : List Nat} {msc0 : List Int} {H : List (Mpc K)} {rank : Int × Int → Nat} (hc : CeqOk cs msc0 H rank) (f : Nat) (h1 : 1 ≤ f)
    (hf : ∀ m ∈ H, rank m.key + 2 ≤ f) (m : Mpc K) (hm : m ∈ H) (a : CeqState K) (C : List (Con K)) (done : Int × Int → Prop) (hi : CeqInv cs msc0 H a C done)
    (hd : ¬ done m.key) :
    ∃ a', ceqStep (accumulate 1 cs) H f a m = some a' ∧
      CeqInv cs msc0 H a' (C ++ if at1? msc0 (dofIx cs m.key) = some 1 then [conOf cs msc0 H f m] else []) (fun k => done k ∨ k = m.key) := by
  have hok := hc.slave m hm
  have hrg := dofIx_range hok
  have hold := hi.old m.key hok hd
  obtain ⟨x, hx⟩ : ∃ x, at1? msc0 (dofIx cs m.key) = some x := by
    rw [at1?_nat _ _ hrg.1]
    exact ⟨_, List.getElem?_eq_getElem (by rw [hc.len]; omega)⟩
  have hx01 : x = 0 ∨ x = 1 := by
    have hx' := hx
    rw [at1?_nat _ _ hrg.1] at hx'
    exact hc.code x (List.mem_of_getElem? hx')
  have hms : IsSlave H m.key := ⟨m, hm, rfl⟩
  unfold ceqStep
  rw [dofNo_ok hok]
  dsimp only
  rw [hold, hx]
  dsimp only
  rcases hx01 with rfl | rfl
  · rw [if_pos (by omega), if_neg (by simp)]
    refine ⟨a, rfl, ?_⟩
    rw [List.append_nil]
    refine ⟨hi.mp, hi.mm, hi.tt, hi.len, ?_, ?_, ?_, ?_⟩
    · rintro k (h | rfl)
      · exact hi.sub k h
      · exact hms
    · intro k hk h
      exact hi.old k hk (fun h' => h (Or.inl h'))
    · intro k hk h h0
      by_cases hdk : done k
      · exact hi.fix k hk hdk h0
      · rw [hi.old k hk hdk]; exact h0
    · rintro k hk (h | rfl) h1
      · exact hi.neg k hk h h1
      · rw [hx] at h1; cases h1
  · rw [if_neg (by omega), if_pos rfl]
    obtain ⟨msc, es, ls, vs⟩ := at1?_set_nat a.msc (dofIx cs m.key) hrg.1 (by rw [hi.len]; omega) (-(a.mpmceq.length : Int))
    rw [es]
    dsimp only
    have hagree : ∀ k, OkDof cs k → ¬ IsSlave H k → at1? msc (dofIx cs k) = at1? msc0 (dofIx cs k) := by
      intro k hk hns
      rw [vs _ (dofIx_range hk).1, if_neg, hi.old k hk (fun h => hns (hi.sub k h))]
      intro e
      have := dofIx_inj hk hok e
      subst this
      exact hns hms
    obtain ⟨r1, r2, -⟩ := resolvedOf_spec hc f h1 hf m hm
    have hfold : m.master.foldlM (fun acc t => resolveTerm (accumulate 1 cs) msc H f t 1 acc) (m.c0, []) = some (resolvedOf cs msc0 H f m) := by
      rw [← r1]
      exact foldlM_congr' _ _ _ (fun t ht a => resolveTerm_congr hc hagree f m hm t ht 1 a) _
    rw [hfold]
    dsimp only
    have hnn : ∀ q ∈ (resolvedOf cs msc0 H f m).2, ((q.1.toNat : Nat) : Int) = q.1 := by
      intro q hq
      obtain ⟨k, -, -, e, -⟩ := r2 q hq
      rw [e, Int.toNat_natCast]
    refine ⟨_, rfl, ?_⟩
    refine ⟨?_, ?_, ?_, ?_, ?_, ?_, ?_, ?_⟩
    · dsimp only
      rw [List.map_append, List.map_singleton, accumulate_append, ← hi.mp, hi.mp, accumulate_last]
      simp [conOf]; ring
    · dsimp only
      rw [List.flatMap_append, ← hi.mm]
      congr 1
      simp only [List.flatMap_cons, List.flatMap_nil, List.append_nil, conOf, List.map_map]
      congr 1
      exact List.map_congr_left fun q hq => (hnn q hq).symm
    · dsimp only
      rw [List.flatMap_append, ← hi.tt]
      congr 1
      simp only [List.flatMap_cons, List.flatMap_nil, List.append_nil, conOf, List.map_map]
      rfl
    · dsimp only; rw [ls, hi.len]
    · rintro k (h | rfl)
      · exact hi.sub k h
      · exact hms
    · intro k hk h
      dsimp only
      rw [vs _ (dofIx_range hk).1, if_neg, hi.old k hk (fun h' => h (Or.inl h'))]
      intro e
      exact h (Or.inr (dofIx_inj hk hok e))
    · intro k hk h h0
      dsimp only
      have hne : ¬ dofIx cs k = dofIx cs m.key := by
        intro e
        rw [e, hx] at h0; cases h0
      rw [vs _ (dofIx_range hk).1, if_neg hne]
      by_cases hdk : done k
      · exact hi.fix k hk hdk h0
      · rw [hi.old k hk hdk]; exact h0
    · intro k hk h hk1
      dsimp only
      rw [vs _ (dofIx_range hk).1]
      by_cases e : dofIx cs k = dofIx cs m.key
      · rw [if_pos e]
        refine ⟨_, ?_, rfl⟩
        rw [hi.mp, accumulate_length]; omega
      · rw [if_neg e]
        rcases h with h | rfl
        · exact hi.neg k hk h hk1
        · exact absurd rfl e

theorem ceqFold_spec {cs : List Nat} {msc0 : List Int} {H : List (Mpc K)} {rank : Int × Int → Nat} (hc : CeqOk cs msc0 H rank) (f : Nat) (h1 : 1 ≤ f)
    (hf : ∀ m ∈ H, rank m.key + 2 ≤ f) (L : List (Mpc K)) (hL : ∀ m ∈ L, m ∈ H) (hnd : (L.map Mpc.key).Nodup) (a : CeqState K) (C : List (Con K))
    (done : Int × Int → Prop) (hi : CeqInv cs msc0 H a C done) (hd : ∀ m ∈ L, ¬ done m.key) :
    ∃ a', L.foldlM (ceqStep (accumulate 1 cs) H f) a = some a' ∧
      CeqInv cs msc0 H a' (C ++ (L.filter fun m => decide (at1? msc0 (dofIx cs m.key) = some 1)).map (conOf cs msc0 H f)) (fun k => done k ∨ ∃ m ∈ L, m.key = k) := by
  induction L generalizing a C done with
  | nil => exact ⟨a, rfl, by simpa using hi⟩
  | cons m L ih =>
    rw [List.map_cons, List.nodup_cons] at hnd
    obtain ⟨a1, e1, i1⟩ := ceqStep_spec hc f h1 hf m (hL m (by simp)) a C done hi (hd m (by simp))
    obtain ⟨a2, e2, i2⟩ := ih (fun m' hm' => hL m' (List.mem_cons_of_mem _ hm')) hnd.2 a1 _ _ i1 (by
      rintro m' hm' (h | h)
      · exact hd m' (List.mem_cons_of_mem _ hm') h
      · exact hnd.1 (List.mem_map.mpr ⟨m', hm', h⟩))
    refine ⟨a2, by rw [List.foldlM_cons, e1]; exact e2, ?_⟩
    have hdone : (fun k => (done k ∨ k = m.key) ∨ ∃ m ∈ L, m.key = k) = (fun k => done k ∨ ∃ m' ∈ m :: L, m'.key = k) := by
      funext k
      have : (k = m.key) = (m.key = k) := propext eq_comm
      simp only [List.mem_cons, exists_eq_or_imp, or_assoc, this]
    rw [hdone] at i2
    by_cases h : at1? msc0 (dofIx cs m.key) = some 1
    · rw [if_pos h, List.append_assoc] at i2
      rw [List.filter_cons_of_pos (by simpa using h)]
      exact i2
    · rw [if_neg h, List.append_nil] at i2
      rw [List.filter_cons_of_neg (by simpa using h)]
      exact i2

/-- The constraints given to the equation solver. -/
def consOf (cs : List Nat) (msc0 : List Int) (H : List (Mpc K)) (f : Nat) : List (Con K) :=
  (H.filter fun m => decide (at1? msc0 (dofIx cs m.key) = some 1)).map (conOf cs msc0 H f)

theorem initConstraintEqs_spec {cs : List Nat} {msc0 : List Int} {P : List (SPatch K)} {rank : Int × Int → Nat} (hc : CeqOk cs msc0 (allMpcs P) rank) (f : Nat) (h1 : 1 ≤ f)
    (hf : ∀ m ∈ allMpcs P, rank m.key + 2 ≤ f) :
    ∃ a, initConstraintEqs (accumulate 1 cs) msc0 f P = some a ∧
      a.mpmceq = accumulate 1 ((consOf cs msc0 (allMpcs P) f).map fun c => 1 + c.masters.length) ∧
      a.mmceq = (consOf cs msc0 (allMpcs P) f).flatMap (fun c => (c.slave : Int) :: c.masters.map fun q => (q.1 : Int)) ∧
      a.ttcc = (consOf cs msc0 (allMpcs P) f).flatMap (fun c => c.offset :: c.masters.map fun q => q.2) ∧
      a.msc.length = cs.sum ∧
      ∀ k, OkDof cs k → (at1? msc0 (dofIx cs k) = some 1 ∧ ¬ IsSlave (allMpcs P) k ∧ at1? a.msc (dofIx cs k) = some 1) ∨
        ((at1? msc0 (dofIx cs k) = some 0 ∨ IsSlave (allMpcs P) k) ∧ at1? a.msc (dofIx cs k) = some 0) := by
  obtain ⟨a, e, i⟩ := ceqFold_spec hc f h1 hf (allMpcs P) (fun _ h => h) hc.uniq ⟨[1], [], [], msc0, []⟩ [] (fun _ => False)
    ⟨rfl, rfl, rfl, hc.len, fun k h => h.elim, fun k _ _ => rfl, fun k _ h => h.elim, fun k _ h => h.elim⟩ (fun _ _ h => h)
  refine ⟨{ a with msc := a.msc.map fun c => if c < 0 then 0 else c }, ?_, i.mp, i.mm, i.tt, by simpa using i.len, ?_⟩
  · unfold initConstraintEqs
    have e' : (P.flatMap fun p => p.mpcs).foldlM (ceqStep (accumulate 1 cs) (P.flatMap fun p => p.mpcs) f) ⟨[1], [], [], msc0, []⟩ = some a := e
    rw [e']; rfl
  · intro k hk
    dsimp only
    have hrg := dofIx_range hk
    have hmap : ∀ v, at1? a.msc (dofIx cs k) = some v → at1? (a.msc.map fun c => if c < 0 then 0 else c) (dofIx cs k) = some (if v < 0 then 0 else v) := by
      intro v hv
      rw [at1?_nat _ _ hrg.1] at hv ⊢
      rw [List.getElem?_map, hv]; rfl
    have hx01 : at1? msc0 (dofIx cs k) = some 0 ∨ at1? msc0 (dofIx cs k) = some 1 := by
      rw [at1?_nat _ _ hrg.1]
      have hlt : dofIx cs k - 1 < msc0.length := by rw [hc.len]; omega
      rw [List.getElem?_eq_getElem hlt]
      rcases hc.code _ (List.getElem_mem hlt) with h | h
      · left; rw [h]
      · right; rw [h]
    have hd : (False ∨ ∃ m ∈ allMpcs P, m.key = k) ↔ IsSlave (allMpcs P) k := by
      rw [false_or]; rfl
    by_cases hs : IsSlave (allMpcs P) k
    · refine Or.inr ⟨Or.inr hs, ?_⟩
      rcases hx01 with h | h
      · exact hmap 0 (i.fix k hk (hd.mpr hs) h)
      · obtain ⟨v, hv, e⟩ := i.neg k hk (hd.mpr hs) h
        rw [hmap v e, if_pos hv]
    · have := i.old k hk (fun h => hs (hd.mp h))
      rcases hx01 with h | h
      · exact Or.inr ⟨Or.inl h, by rw [h] at this; exact hmap 0 this⟩
      · exact Or.inl ⟨h, hs, by rw [h] at this; exact hmap 1 this⟩

end IFEM.Spec
