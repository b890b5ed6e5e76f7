import Verif.Model.Dirichlet
import Verif.Lemmas.SamPatchCeq
import Verif.Lemmas.SamEq

/-!
# Lemmas on the update of constraint tables
-/
namespace IFEM.Dirichlet
open IFEM.Spec IFEM.Props
variable {K : Type} [Field K] [LinearOrder K]

/-- The status codes after the numbering of equations: positive for the free DOFs which are not slaves. -/
def Codes (cs : List Nat) (msc0 : List Int) (H : List (Mpc K)) (msc : List Int) : Prop :=
  ∀ k, OkDof cs k → (at1? msc0 (dofIx cs k) = some 1 ∧ ¬ IsSlave H k ∧ ∃ v, 0 < v ∧ at1? msc (dofIx cs k) = some v) ∨
    ((at1? msc0 (dofIx cs k) = some 0 ∨ IsSlave H k) ∧ ∃ v, v ≤ 0 ∧ at1? msc (dofIx cs k) = some v)

theorem set_same {α : Type} (l : List α) (i : Nat) (x : α) (h : l[i]? = some x) : set0? l (i : Int) x = some l := by
  have hl := (List.getElem?_eq_some_iff.1 h).1
  unfold set0?
  rw [if_pos (by constructor <;> omega)]
  congr 1
  apply List.ext_getElem?
  intro j
  rw [List.getElem?_set]
  by_cases hj : (i : Int).toNat = j
  · rw [if_pos hj]
    have : i = j := by omega
    subst this
    rw [Int.toNat_natCast, if_pos hl, h]
  · rw [if_neg hj]

theorem prefix_drop {α : Type} {A B l : List α} {i : Nat} (h : A ++ B <+: l.drop i) : A <+: l.drop i ∧ B <+: l.drop (i + A.length) := by
  refine ⟨(List.prefix_append A B).trans h, ?_⟩
  obtain ⟨t, ht⟩ := h
  rw [← List.drop_drop, ← ht, List.append_assoc, List.drop_left]
  exact List.prefix_append B t

theorem prefix_head {α : Type} {x : α} {A l : List α} {i : Nat} (h : x :: A <+: l.drop i) : l[i]? = some x := by
  obtain ⟨t, ht⟩ := h
  have := congrArg (fun l => l[0]?) ht
  simpa using this.symm

/-- What `update` does where `resolve` gives the terms `B`. -/
def Follows (madof msc : List Int) (H : List (Mpc K)) (f : Nat) (t : MTerm K) (scale o o' : K) (B : List (Int × K)) : Prop :=
  ∀ (mmceq : List Int) (tt : List K) (ip : Nat), B.map (fun q => q.1) <+: mmceq.drop (ip+1) → B.map (fun q => q.2) <+: tt.drop (ip+1) →
    updateTerm madof msc mmceq H f t scale (o, (ip : Int), tt) = some (o', ((ip + B.length : Nat) : Int), tt)

theorem follow_fold (madof msc msc0 : List Int) (H : List (Mpc K)) (f : Nat) (scale : K) (l : List (MTerm K))
    (h : ∀ t ∈ l, ∀ o B0 r, resolveTerm madof msc0 H f t scale (o, B0) = some r → ∃ B, r.2 = B0 ++ B ∧ Follows madof msc H f t scale o r.1 B) :
    ∀ o B0 r, l.foldlM (fun acc t => resolveTerm madof msc0 H f t scale acc) (o, B0) = some r → ∃ B, r.2 = B0 ++ B ∧
      ∀ (mmceq : List Int) (tt : List K) (ip : Nat), B.map (fun q => q.1) <+: mmceq.drop (ip+1) → B.map (fun q => q.2) <+: tt.drop (ip+1) →
        l.foldlM (fun a t => updateTerm madof msc mmceq H f t scale a) (o, (ip : Int), tt) = some (r.1, ((ip + B.length : Nat) : Int), tt) := by
  induction l with
  | nil =>
    intro o B0 r hr
    have : (o, B0) = r := Option.some.inj hr
    subst this
    exact ⟨[], by simp, fun mmceq tt ip _ _ => rfl⟩
  | cons t l ih =>
    intro o B0 r hr
    rw [List.foldlM_cons] at hr
    obtain ⟨⟨o1, B1⟩, h1, h2⟩ := Option.bind_eq_some_iff.1 hr
    obtain ⟨B, e1, w1⟩ := h t (by simp) o B0 _ h1
    obtain ⟨B', e2, w2⟩ := ih (fun t ht => h t (by simp [ht])) o1 B1 r h2
    dsimp only at e1
    refine ⟨B ++ B', by rw [e2, e1, List.append_assoc], fun mmceq tt ip p1 p2 => ?_⟩
    rw [List.map_append] at p1 p2
    obtain ⟨a1, a2⟩ := prefix_drop p1
    obtain ⟨b1, b2⟩ := prefix_drop p2
    rw [List.length_map] at a2 b2
    rw [List.foldlM_cons, w1 mmceq tt ip a1 b1]
    have := w2 mmceq tt (ip + B.length) (by rw [show ip + B.length + 1 = ip + 1 + B.length by omega]; exact a2) (by rw [show ip + B.length + 1 = ip + 1 + B.length by omega]; exact b2)
    rw [Option.bind_eq_bind, Option.bind_some, this, List.length_append, Nat.add_assoc]

theorem follow_term {cs : List Nat} {msc0 msc : List Int} {H : List (Mpc K)} {rank : Int × Int → Nat} (hc : CeqOk cs msc0 H rank) (hm : Codes cs msc0 H msc) (f : Nat) :
    ∀ m ∈ H, ∀ t ∈ m.master, ∀ scale o B0 r, resolveTerm (accumulate 1 cs) msc0 H f t scale (o, B0) = some r →
      ∃ B, r.2 = B0 ++ B ∧ Follows (accumulate 1 cs) msc H f t scale o r.1 B := by
  induction f with
  | zero => intro m _ t _ scale o B0 r h; simp [resolveTerm] at h
  | succ f ih =>
    intro m hmH t ht scale o B0 r h
    have hok := hc.master m hmH t ht
    have hl := hc.link m hmH t ht
    simp only [resolveTerm, dofNo_ok hok] at h
    by_cases hn : t.nextc = true
    · rw [if_pos hn] at h
      cases hf : findSlave t.key H with
      | none => rw [hf] at h; simp at h
      | some c =>
        rw [hf] at h
        dsimp only at h
        obtain ⟨B, e, w⟩ := follow_fold (accumulate 1 cs) msc msc0 H f (scale * t.coeff) c.master (fun t' ht' o B0 r hr => ih c (findSlave_mem _ _ _ hf).1 t' ht' _ o B0 r hr) _ _ _ h
        refine ⟨B, e, fun mmceq tt ip p1 p2 => ?_⟩
        have hs : IsSlave H t.key := hl.1 hn
        obtain ⟨v, hv, ev⟩ : ∃ v, v ≤ 0 ∧ at1? msc (dofIx cs t.key) = some v := by
          rcases hm t.key hok with ⟨-, h2, -⟩ | ⟨-, h2⟩
          · exact absurd hs h2
          · exact h2
        simp only [updateTerm, dofNo_ok hok, ev]
        rw [if_neg (by omega), if_pos hn, hf]
        exact w mmceq tt ip p1 p2
    · rw [if_neg hn] at h
      have hs : ¬ IsSlave H t.key := fun h => hn (hl.2 h)
      rcases hm t.key hok with ⟨h1, -, v, hv, ev⟩ | ⟨h1, v, hv, ev⟩
      · rw [h1] at h
        simp only [if_pos (show (1 : Int) > 0 by omega), Option.some.injEq] at h
        subst h
        refine ⟨[(_, t.coeff * scale)], rfl, fun mmceq tt ip p1 p2 => ?_⟩
        simp only [List.map_cons, List.map_nil] at p1 p2
        have g1 := prefix_head p1
        have g2 := prefix_head p2
        simp only [updateTerm, dofNo_ok hok, ev]
        rw [if_pos hv]
        have : at0? mmceq ((ip : Int) + 1) = some (dofIx cs t.key : Int) := by
          rw [show (ip : Int) + 1 = ((ip + 1 : Nat) : Int) by push_cast; rfl, at0?_natCast]; exact g1
        rw [this]
        dsimp only
        rw [if_pos rfl, show (ip : Int) + 1 = ((ip + 1 : Nat) : Int) by push_cast; rfl, set_same _ _ _ g2]
        rfl
      · have h0 : at1? msc0 (dofIx cs t.key) = some 0 := by
          rcases h1 with h1 | h1
          · exact h1
          · exact absurd h1 hs
        rw [h0] at h
        simp only [if_neg (show ¬ (0 : Int) > 0 by omega), Option.some.injEq] at h
        subst h
        refine ⟨[], by simp, fun mmceq tt ip _ _ => ?_⟩
        simp only [updateTerm, dofNo_ok hok, ev]
        rw [if_neg (by omega), if_neg hn]
        rfl

/-! ## One constraint -/

/-- The parts of a constraint in `mmceq` and `ttcc`. -/
def mmB (c : Con K) : List Int := (c.slave : Int) :: c.masters.map fun q => (q.1 : Int)
def ttB (c : Con K) : List K := c.offset :: c.masters.map fun q => q.2

/-- What remains unchanged. -/
def shape (c : Con K) : Nat × List (Nat × K) := (c.slave, c.masters)

/-- The constant term that is stored. -/
def stored (prev : Option (List K)) (slave : Nat) (off : K) : K :=
  match prev with
  | none => 0
  | some u => if off = 0 then 0 else if slave ≤ u.length then off - u.getD (slave-1) 0 else off

def adj (prev : Option (List K)) (c : Con K) : Con K := { c with offset := stored prev c.slave c.offset }

theorem constTerm_eq (prev : Option (List K)) (slave : Nat) (hs : 1 ≤ slave) (off : K) : constTerm off (slave : Int) prev = some (stored prev slave off) := by
  cases prev with
  | none => rfl
  | some u =>
    unfold constTerm stored
    dsimp only
    by_cases h0 : off = 0
    · rw [if_pos h0, if_pos h0]
    · rw [if_neg h0, if_neg h0]
      by_cases h1 : slave ≤ u.length
      · rw [if_pos (by omega), if_pos h1, at1?_nat _ _ hs, List.getElem?_eq_getElem (show slave-1 < u.length by omega), List.getD_eq_getElem?_getD, List.getElem?_eq_getElem (show slave-1 < u.length by omega)]
        rfl
      · rw [if_neg (by omega), if_neg h1]

/-- The tables hold the constraints `C`, up to the constant terms. -/
structure Tables (cs : List Nat) (msc0 : List Int) (H : List (Mpc K)) (s : Sam K) (C : List (Con K)) : Prop where
  madof : s.madof = accumulate 1 cs
  codes : Codes cs msc0 H s.msc
  mp : s.mpmceq = accumulate 1 (C.map fun c => 1 + c.masters.length)
  mm : s.mmceq = C.flatMap mmB

theorem flatMap_len_mm (C : List (Con K)) : (C.flatMap mmB).length = (C.map fun c => 1 + c.masters.length).sum := by
  induction C with
  | nil => rfl
  | cons c C ih => simp [List.flatMap_cons, mmB, ih]; omega

theorem flatMap_len_tt (C : List (Con K)) : (C.flatMap ttB).length = (C.map fun c => 1 + c.masters.length).sum := by
  induction C with
  | nil => rfl
  | cons c C ih => simp [List.flatMap_cons, ttB, ih]; omega

theorem drop_mid {α : Type} (A : List α) (x : α) (B R : List α) (n : Nat) (h : A.length = n) : B <+: (A ++ (x :: B ++ R)).drop (n+1) := by
  subst h
  rw [show A ++ (x :: B ++ R) = (A ++ [x]) ++ (B ++ R) by simp, show A.length + 1 = (A ++ [x]).length by simp, List.drop_left]
  exact List.prefix_append B R

theorem step_spec {cs : List Nat} {msc0 : List Int} {H : List (Mpc K)} {rank : Int × Int → Nat} (hc : CeqOk cs msc0 H rank) (f : Nat) (h1 : 1 ≤ f) (hf : ∀ m ∈ H, rank m.key + 2 ≤ f)
    (m : Mpc K) (hm : m ∈ H) (s : Sam K) (A R : List (Con K)) (c : Con K) (hs : Tables cs msc0 H s (A ++ c :: R)) (he : shape c = shape (conOf cs msc0 H f m)) (prev : Option (List K)) :
    updateStep s H f prev ((A ++ c :: R).flatMap ttB) m (some A.length) = some ((A ++ adj prev (conOf cs msc0 H f m) :: R).flatMap ttB, true) := by
  have hok := hc.slave m hm
  have hrg := dofIx_range hok
  obtain ⟨r1, r2, -⟩ := resolvedOf_spec hc f h1 hf m hm
  have hslave : c.slave = dofIx cs m.key := congrArg Prod.fst he
  have hmast : c.masters = (resolvedOf cs msc0 H f m).2.map fun q => (q.1.toNat, q.2) := congrArg Prod.snd he
  set n := (A.map fun c => 1 + c.masters.length).sum with hn
  have mp : at0? s.mpmceq (A.length : Int) = some (1 + (n : Int)) := by
    rw [hs.mp, at0?_natCast, accumulate_get 1 _ _ (by simp)]
    congr 2
    rw [List.map_append, List.take_left' (by simp)]
  have smm : s.mmceq = A.flatMap mmB ++ (mmB c ++ R.flatMap mmB) := by rw [hs.mm, List.flatMap_append, List.flatMap_cons]
  have stt : (A ++ c :: R).flatMap ttB = A.flatMap ttB ++ (ttB c ++ R.flatMap ttB) := by rw [List.flatMap_append, List.flatMap_cons]
  have lmm : (A.flatMap mmB).length = n := flatMap_len_mm A
  have ltt : (A.flatMap ttB).length = n := flatMap_len_tt A
  have mm0 : at0? s.mmceq (1 + (n : Int) - 1) = some (dofIx cs m.key : Int) := by
    rw [show 1 + (n : Int) - 1 = ((n : Nat) : Int) by omega, at0?_natCast, smm, List.getElem?_append_right (by omega), lmm]
    simp [mmB, hslave]
  obtain ⟨v, hv, ev⟩ : ∃ v, v ≤ 0 ∧ at1? s.msc (dofIx cs m.key) = some v := by
    rcases hs.codes m.key hok with ⟨-, h2, -⟩ | ⟨-, h2⟩
    · exact absurd ⟨m, hm, rfl⟩ h2
    · exact h2
  have wr : ∀ x, set0? ((A ++ c :: R).flatMap ttB) (1 + (n : Int) - 1) x = some ((A ++ { c with offset := x } :: R).flatMap ttB) := by
    intro x
    rw [stt, show 1 + (n : Int) - 1 = ((n : Nat) : Int) by omega]
    unfold set0?
    rw [if_pos (by constructor <;> simp [ltt, ttB]), Int.toNat_natCast, List.set_append_right _ _ (by omega), ltt, Nat.sub_self, List.flatMap_append, List.flatMap_cons]
    rfl
  have adjc : ∀ x, x = stored prev (dofIx cs m.key) (resolvedOf cs msc0 H f m).1 → ({ c with offset := x } : Con K) = adj prev (conOf cs msc0 H f m) := by
    intro x hx
    unfold adj conOf
    dsimp only
    subst hx
    congr 1
  unfold updateStep
  dsimp only
  rw [hs.madof, dofNo_ok hok, mp]
  dsimp only
  rw [ev, mm0]
  dsimp only
  rw [if_neg (by push Not; exact ⟨hv, rfl⟩)]
  cases prev with
  | none =>
    simp only [Option.isSome_none, Bool.false_eq_true, if_false, List.foldlM_nil]
    rw [Option.pure_def]
    dsimp only
    rw [constTerm_eq none _ hrg.1]
    dsimp only
    rw [wr, Option.map_some, adjc (stored none (dofIx cs m.key) m.c0) rfl]
  | some u =>
    simp only [Option.isSome_some, if_true]
    obtain ⟨B, eB, w⟩ := follow_fold (accumulate 1 cs) s.msc msc0 H f 1 m.master (fun t ht o B0 r hr => follow_term hc hs.codes f m hm t ht 1 o B0 r hr) _ _ _ r1
    rw [List.nil_append] at eB
    have hfree : ∀ q ∈ B, ((q.1.toNat : Nat) : Int) = q.1 := by
      intro q hq
      obtain ⟨k, -, -, e, -⟩ := r2 q (by rw [eB]; exact hq)
      rw [e]; simp
    have p1 : B.map (fun q => q.1) <+: s.mmceq.drop (n+1) := by
      rw [smm]
      have : mmB c = (c.slave : Int) :: B.map (fun q => q.1) := by
        unfold mmB
        rw [hmast, eB, List.map_map]
        congr 1
        apply List.map_congr_left
        intro q hq
        exact hfree q hq
      rw [this]
      exact drop_mid _ _ _ _ _ lmm
    have p2 : B.map (fun q => q.2) <+: ((A ++ c :: R).flatMap ttB).drop (n+1) := by
      rw [stt]
      have : ttB c = c.offset :: B.map (fun q => q.2) := by
        unfold ttB
        rw [hmast, eB, List.map_map]
        rfl
      rw [this]
      exact drop_mid _ _ _ _ _ ltt
    have := w s.mmceq ((A ++ c :: R).flatMap ttB) n p1 p2
    rw [show 1 + (n : Int) - 1 = (n : Int) by omega, this]
    dsimp only
    rw [constTerm_eq (some u) _ hrg.1]
    dsimp only
    rw [show (n : Int) = 1 + (n : Int) - 1 by omega, wr, Option.map_some, adjc _ rfl]

/-! ## All constraints -/

/-- Is the slave not fixed? -/
def open1 (cs : List Nat) (msc0 : List Int) (m : Mpc K) : Bool := decide (at1? msc0 (dofIx cs m.key) = some 1)

/-- The indices of the constraints. -/
def idxs (cs : List Nat) (msc0 : List Int) : Nat → List (Mpc K) → List (Option Nat)
  | _, [] => []
  | n, m :: ms => if open1 cs msc0 m then some n :: idxs cs msc0 (n+1) ms else none :: idxs cs msc0 n ms

theorem loop_spec {cs : List Nat} {msc0 : List Int} {H : List (Mpc K)} {rank : Int × Int → Nat} (hc : CeqOk cs msc0 H rank) (f : Nat) (h1 : 1 ≤ f) (hf : ∀ m ∈ H, rank m.key + 2 ≤ f)
    (s : Sam K) (prev : Option (List K)) (L : List (Mpc K)) (hL : ∀ m ∈ L, m ∈ H) :
    ∀ (A R : List (Con K)), Tables cs msc0 H s (A ++ R) → R.map shape = ((L.filter (open1 cs msc0)).map (conOf cs msc0 H f)).map shape →
      updateLoop s H f prev ((A ++ R).flatMap ttB) L (idxs cs msc0 A.length L) = some ((A ++ ((L.filter (open1 cs msc0)).map (conOf cs msc0 H f)).map (adj prev)).flatMap ttB, true) := by
  induction L with
  | nil =>
    intro A R _ hR
    simp at hR
    subst hR
    simp [updateLoop, idxs]
  | cons m L ih =>
    intro A R hs hR
    by_cases ho : open1 cs msc0 m = true
    · rw [List.filter_cons_of_pos ho] at hR ⊢
      simp only [List.map_cons] at hR ⊢
      cases R with
      | nil => simp at hR
      | cons c R =>
        rw [List.map_cons, List.cons.injEq] at hR
        rw [idxs, if_pos ho]
        rw [updateLoop, step_spec hc f h1 hf m (hL m (by simp)) s A R c hs hR.1 prev]
        dsimp only
        have e : ∀ (x : Con K) (Y : List (Con K)), A ++ x :: Y = (A ++ [x]) ++ Y := by intro x Y; simp
        have hs' : Tables cs msc0 H s ((A ++ [adj prev (conOf cs msc0 H f m)]) ++ R) := by
          have h2 : (A ++ c :: R).map shape = ((A ++ [adj prev (conOf cs msc0 H f m)]) ++ R).map shape := by
            rw [← e]
            simp only [List.map_append, List.map_cons]
            rw [hR.1]; rfl
          have g : ∀ X Y : List (Con K), X.map shape = Y.map shape → (X.map fun c => 1 + c.masters.length) = (Y.map fun c => 1 + c.masters.length) ∧ X.flatMap mmB = Y.flatMap mmB := by
            intro X
            induction X with
            | nil => intro Y h; simp at h; subst h; exact ⟨rfl, rfl⟩
            | cons x X ihX =>
              intro Y h
              cases Y with
              | nil => simp at h
              | cons y Y =>
                rw [List.map_cons, List.map_cons, List.cons.injEq] at h
                obtain ⟨i1, i2⟩ := ihX Y h.2
                have hx1 : x.slave = y.slave := congrArg Prod.fst h.1
                have hx2 : x.masters = y.masters := congrArg Prod.snd h.1
                refine ⟨by rw [List.map_cons, List.map_cons, i1, hx2], ?_⟩
                rw [List.flatMap_cons, List.flatMap_cons, i2]
                unfold mmB
                rw [hx1, hx2]
          obtain ⟨g1, g2⟩ := g _ _ h2
          exact ⟨hs.madof, hs.codes, by rw [hs.mp, g1], by rw [hs.mm, g2]⟩
        have := ih (fun m hm => hL m (by simp [hm])) (A ++ [adj prev (conOf cs msc0 H f m)]) R hs' hR.2
        have e1 := e (adj prev (conOf cs msc0 H f m)) R
        have e2 := e (adj prev (conOf cs msc0 H f m)) (List.map (adj prev) (List.map (conOf cs msc0 H f) (List.filter (open1 cs msc0) L)))
        rw [e1, e2, show A.length + 1 = (A ++ [adj prev (conOf cs msc0 H f m)]).length by simp]
        exact this
    · rw [List.filter_cons_of_neg ho] at hR ⊢
      rw [idxs, if_neg ho, updateLoop, updateStep]
      dsimp only
      exact ih (fun m hm => hL m (by simp [hm])) A R hs hR

/-- The indices given by `initConstraintEqs`. -/
theorem iceqs_spec {cs : List Nat} {msc0 : List Int} {H : List (Mpc K)} {rank : Int × Int → Nat} (hc : CeqOk cs msc0 H rank) (f : Nat) (h1 : 1 ≤ f)
    (hf : ∀ m ∈ H, rank m.key + 2 ≤ f) (L : List (Mpc K)) (hL : ∀ m ∈ L, m ∈ H) (hnd : (L.map Mpc.key).Nodup) (a : CeqState K) (C : List (Con K))
    (done : Int × Int → Prop) (hi : CeqInv cs msc0 H a C done) (hd : ∀ m ∈ L, ¬ done m.key) :
    iceqs (accumulate 1 cs) H f a L = some (idxs cs msc0 C.length L) := by
  induction L generalizing a C done with
  | nil => rfl
  | cons m L ih =>
    obtain ⟨a', e, hi'⟩ := ceqStep_spec hc f h1 hf m (hL m (by simp)) a C done hi (hd m (by simp))
    rw [List.map_cons, List.nodup_cons] at hnd
    have := ih (fun m hm => hL m (by simp [hm])) hnd.2 a' _ _ hi' (by
      intro m' hm' h
      rcases h with h | h
      · exact hd m' (by simp [hm']) h
      · exact hnd.1 (List.mem_map.2 ⟨m', hm', h⟩))
    rw [iceqs, e]
    dsimp only
    rw [this, Option.map_some, idxs]
    have la : a.mpmceq.length = C.length + 1 := by rw [hi.mp, accumulate_length, List.length_map]
    by_cases ho : at1? msc0 (dofIx cs m.key) = some 1
    · rw [if_pos ho] at hi' ⊢
      have la' : a'.mpmceq.length = C.length + 2 := by rw [hi'.mp, accumulate_length, List.length_map]; simp
      rw [if_neg (by omega), if_pos (by simp [open1, ho])]
      simp [la]
    · rw [if_neg ho] at hi' ⊢
      have la' : a'.mpmceq.length = C.length + 1 := by rw [hi'.mp, accumulate_length, List.length_map]; simp
      rw [if_pos (by omega), if_neg (by simp [open1, ho])]
      simp

end IFEM.Dirichlet
