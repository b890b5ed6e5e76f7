import Verif.Lemmas.BasisCacheInv

/-! The invariant of the caches of a patch, kept by every operation. -/

namespace IFEM.BCache

variable {K V : Type} [Field K]

/-- Values hold the functions and (at least) `k` derivatives at a point. -/
def HoldsAt (P : Patch K V) (b : Int) (k : Nat) (v : Vals V) (pt : List K) : Prop :=
  v.N = some (P.eval b 0 pt) ∧ (1 ≤ k → v.d1 = some (P.eval b 1 pt)) ∧ (2 ≤ k → v.d2 = some (P.eval b 2 pt)) ∧
  (3 ≤ k → v.d3 = some (P.eval b 3 pt))

theorem holds_valsOf (P : Patch K V) (b : Int) (k j : Nat) (h : k ≤ j) (pt : List K) :
    HoldsAt P b k (valsOf P b j pt) pt := by
  refine ⟨rfl, ?_, ?_, ?_⟩ <;> intro hk <;> simp [valsOf] <;> omega

def lvl (P : Patch K V) (w nd : Nat) : Nat := if P.kind = .spline then nd else w
def lvlR (P : Patch K V) (w : Nat) : Nat := if P.kind = .spline then 1 else w

def Held (P : Patch K V) (pol : Policy) (b : Int) (k : Nat) (q : Quad K) (l : List (Vals V)) : Prop :=
  l.length = (pts P q).length ∧ ∀ (i : Nat) (v : Vals V) (pt : List K), l[i]? = some v → (pts P q)[i]? = some pt →
    (pol = .onTheFly ∧ v.N = none) ∨ HoldsAt P b k v pt

def Good (P : Patch K V) (pol : Policy) (M R : Quad K) (w th : Nat) (c : Cache V) : Prop :=
  (pol = .noCache → c.values.length = th ∧ (R.isSet = true → c.valuesRed.length = th)) ∧
  (pol ≠ .noCache → Held P pol c.basis (lvl P w c.nderiv) M c.values ∧
    (R.isSet = true → Held P pol c.basis (lvlR P w) R c.valuesRed))

def ItgOK (P : Patch K V) (w : Nat) (n : Int) (ng0 : Nat) (itg : Option Itg) : Prop :=
  nRed itg ng0 = n ∧ (P.kind ≠ .spline → ∃ j, lagDer P itg = some j ∧ w ≤ j)

def DerOK (P : Patch K V) (nd : Nat) : Prop := P.kind = .spline → 1 ≤ nd ∧ nd ≤ maxDer P

theorem calc_eq {P : Patch K V} {w : Nat} {n : Int} {ng0 : Nat} {c : Cache V} (hi : ItgOK P w n ng0 c.itg)
    (hd : DerOK P c.nderiv) (q : Quad K) :
    ∃ j, lvl P w c.nderiv ≤ j ∧ lvlR P w ≤ j ∧ ∀ el gp,
      calculatePt P q c el gp = (point P q el gp).map (valsOf P c.basis j) := by
  by_cases hs : P.kind = .spline
  · obtain ⟨h1, h2⟩ := hd hs
    exact ⟨c.nderiv, by simp [lvl, hs], by simp [lvlR, hs, h1], fun el gp => by simp [calculatePt, point, hs, h1, h2]⟩
  · obtain ⟨j, hj, hw⟩ := hi.2 hs
    refine ⟨j, by simp [lvl, hs, hw], by simp [lvlR, hs, hw], fun el gp => ?_⟩
    unfold calculatePt point
    cases h : P.kind
    · exact absurd h hs
    · simp [hj]
    · simp [hj]

theorem resize_nil (n : Nat) : resize ([] : List (Vals V)) n = List.replicate n {} := by simp [resize]

theorem resize_len (l : List (Vals V)) (n : Nat) : (resize l n).length = n := by simp [resize]; omega

theorem held_blank (P : Patch K V) (b : Int) (k : Nat) (q : Quad K) (h : QOK P q) :
    Held P .onTheFly b k q (List.replicate (total P q) {}) := by
  refine ⟨by simp [h.tot], fun i v pt hv _ => Or.inl ⟨rfl, ?_⟩⟩
  obtain ⟨hi, hv⟩ := List.getElem?_eq_some_iff.1 hv
  rw [← hv]; simp

theorem fill_all (P : Patch K V) (pol : Policy) (b : Int) (k j : Nat) (hk : k ≤ j) (q : Quad K) (h : QOK P q) :
    ∃ l, fill (List.replicate (total P q) ({} : Vals V)) ((pts P q).map (valsOf P b j)) = some l ∧
      Held P pol b k q l := by
  refine ⟨(pts P q).map (valsOf P b j), ?_, ?_, ?_⟩
  · simp [fill, h.tot]
  · simp
  · intro i v pt hv hp
    rw [List.getElem?_map, hp, Option.map_some, Option.some.injEq] at hv
    exact Or.inr (hv ▸ holds_valsOf P b k j hk pt)

theorem calcAll_good {P : Patch K V} {pol : Policy} {w : Nat} {n : Int} {ng0 : Nat} {c : Cache V} {M R : Quad K}
    (hi : ItgOK P w n ng0 c.itg) (hd : DerOK P c.nderiv) (hM : QOK P M) (hR : R.isSet = true → QOK P R)
    (hh : hasReduced R = R.isSet) (hp : pol ≠ .noCache)
    (hv : c.values = List.replicate (total P M) {})
    (hr : R.isSet = true → c.valuesRed = List.replicate (total P R) {}) :
    ∃ c', calculateAll P M R c = some c' ∧ c'.basis = c.basis ∧ c'.nderiv = c.nderiv ∧ c'.itg = c.itg ∧
      ∀ th, Good P pol M R w th c' := by
  by_cases hs : P.kind = .spline
  · obtain ⟨h1, h2⟩ := hd hs
    obtain ⟨l, hl, gl⟩ := fill_all P pol c.basis (lvl P w c.nderiv) c.nderiv (by simp [lvl, hs]) M hM
    have e : ∀ q : Quad K, pts P q = grid q.gpar := fun q => by simp [pts, hs]
    rw [e] at hl
    by_cases h0 : R.isSet = true
    · obtain ⟨r, hr', gr⟩ := fill_all P pol c.basis (lvlR P w) 1 (by simp [lvlR, hs]) R (hR h0)
      rw [e] at hr'
      refine ⟨{ c with values := l, valuesRed := r }, ?_, rfl, rfl, rfl, fun th => ⟨fun h => absurd h hp, fun _ => ⟨gl, fun _ => gr⟩⟩⟩
      unfold calculateAll
      simp [hs, h1, h2, hv, hl, hh, h0, hr h0, hr']
    · refine ⟨{ c with values := l, valuesRed := c.valuesRed }, ?_, rfl, rfl, rfl, fun th => ⟨fun h => absurd h hp, fun _ => ⟨gl, fun h => absurd h h0⟩⟩⟩
      unfold calculateAll
      simp [hs, h1, h2, hv, hl, hh, h0]
  · obtain ⟨j, hj, hw⟩ := hi.2 hs
    obtain ⟨l, hl, gl⟩ := fill_all P pol c.basis (lvl P w c.nderiv) j (by simp [lvl, hs, hw]) M hM
    have e : ∀ q : Quad K, pts P q = grid (q.xg.map (·.getD [])) := fun q => by
      unfold pts; cases h : P.kind <;> first | rfl | exact absurd h hs
    have e2 : ∀ c : Cache V, calculateAll P M R c = (lagDer P c.itg).bind fun k =>
        (fill c.values ((grid (M.xg.map (·.getD []))).map (valsOf P c.basis k))).bind fun v =>
        (if R.isSet
         then fill c.valuesRed ((grid (R.xg.map (·.getD []))).map (valsOf P c.basis k)) else some c.valuesRed).bind
          fun r => some { c with values := v, valuesRed := r } := fun c => by
      unfold calculateAll; cases h : P.kind <;> first | rfl | exact absurd h hs
    rw [e] at hl
    by_cases h0 : R.isSet = true
    · obtain ⟨r, hr', gr⟩ := fill_all P pol c.basis (lvlR P w) j (by simp [lvlR, hs, hw]) R (hR h0)
      rw [e] at hr'
      refine ⟨{ c with values := l, valuesRed := r }, ?_, rfl, rfl, rfl, fun th => ⟨fun h => absurd h hp, fun _ => ⟨gl, fun _ => gr⟩⟩⟩
      rw [e2]
      simp [hj, hv, hl, h0, hr h0, hr']
    · refine ⟨{ c with values := l, valuesRed := c.valuesRed }, ?_, rfl, rfl, rfl, fun th => ⟨fun h => absurd h hp, fun _ => ⟨gl, fun h => absurd h h0⟩⟩⟩
      rw [e2]
      simp [hj, hv, hl, h0]

/-- The quadratures are those of the patch, or reset. -/
def QuadsOK (P : Patch K V) (ngs : List Nat) (n : Int) (st : St K V) : Prop :=
  (st.main = mainQ P ngs ∧ st.red = redQ P n (ngs.getD 0 0)) ∨
  (st.main = Quad.reset K P.knots.length ∧ st.red = Quad.reset K P.knots.length)

theorem internalInit_eq {P : Patch K V} {ngs : List Nat} {n : Int} (h : Rules P ngs n) {w : Nat} {st : St K V}
    {c : Cache V} (hq : QuadsOK P ngs n st) (hn : st.ngs = ngs) (hi : ItgOK P w n (ngs.getD 0 0) c.itg) :
    internalInit P st c = ({ st with main := mainQ P ngs, red := redQ P n (ngs.getD 0 0) },
      { c with nTotal := total P (mainQ P ngs)
               nTotalRed := if (redQ P n (ngs.getD 0 0)).isSet then total P (redQ P n (ngs.getD 0 0)) else c.nTotalRed }) := by
  unfold internalInit
  rcases hq with ⟨h1, h2⟩ | ⟨h1, h2⟩
  · simp only [h1, h2, main_isSet P ngs n h, if_true]
  · simp only [h1, h2, reset_isSet, hn, setup_eq P ngs n h c.itg hi.1]
    simp

theorem clear_eq (P : Patch K V) (st : St K V) (c : Cache V) : ∃ s, clearCache P st c =
    (s, { c with values := [], valuesRed := [] }) ∧ s.caches = st.caches ∧ s.ngs = st.ngs ∧ s.threads = st.threads ∧
    (c.basis = 1 → s.main = Quad.reset K P.knots.length ∧ s.red = Quad.reset K P.knots.length) ∧
    (c.basis ≠ 1 → s = st) := by
  unfold clearCache
  by_cases hb : c.basis = 1
  · exact ⟨_, rfl, by simp [hb], by simp [hb], by simp [hb], by simp [hb], by simp [hb]⟩
  · exact ⟨_, rfl, by simp [hb], by simp [hb], by simp [hb], by simp [hb], by simp [hb]⟩

theorem rebuild_good {P : Patch K V} {pol : Policy} {ngs : List Nat} {n : Int} (h : Rules P ngs n) {w : Nat}
    {st : St K V} {c : Cache V} (hq : QuadsOK P ngs n st) (hn : st.ngs = ngs)
    (hi : ItgOK P w n (ngs.getD 0 0) c.itg) {nd : Nat} (hd : DerOK P nd) :
    ∃ c', rebuild P pol st c nd =
        some ({ st with main := mainQ P ngs, red := redQ P n (ngs.getD 0 0) }, c') ∧
      c'.basis = c.basis ∧ c'.nderiv = nd ∧ c'.itg = c.itg ∧
      Good P pol (mainQ P ngs) (redQ P n (ngs.getD 0 0)) w st.threads c' := by
  have hM := qok (shape_main P ngs n h)
  have hset := red_isSet P ngs n h (ngs.getD 0 0)
  have hhas := red_has P ngs n h (ngs.getD 0 0)
  have hR : (redQ P n (ngs.getD 0 0)).isSet = true → QOK P (redQ P n (ngs.getD 0 0)) := fun h0 =>
    qok (shape_red P ngs n h _ (by rw [hset] at h0; simpa using h0))
  have hh : hasReduced (redQ P n (ngs.getD 0 0)) = (redQ P n (ngs.getD 0 0)).isSet := by rw [hset, hhas]
  obtain ⟨s, hs, h1, h2, h3, h4, h5⟩ := clear_eq P st { c with nderiv := nd }
  have hq' : QuadsOK P ngs n s := by
    by_cases hb : c.basis = 1
    · exact Or.inr (h4 hb)
    · rw [h5 hb]; exact hq
  have e := internalInit_eq h (c := { c with values := [], valuesRed := [], nderiv := nd }) hq' (h2.trans hn) hi
  have es : { s with main := mainQ P ngs, red := redQ P n (ngs.getD 0 0) } =
      { st with main := mainQ P ngs, red := redQ P n (ngs.getD 0 0) } := by
    rw [← h1, ← h2, ← h3]
  rw [es] at e
  unfold rebuild
  simp only [hs, e]
  by_cases hp : pol = .noCache
  · refine ⟨_, by rw [if_pos hp], ?_, ?_, ?_, ?_, ?_⟩
    · simp [resizeBuffers, hp]
    · simp [resizeBuffers, hp]
    · simp [resizeBuffers, hp]
    · intro _
      refine ⟨by simp [resizeBuffers, hp, resize_len], fun h0 => ?_⟩
      simp only [resizeBuffers, hp, if_true, hh, h0, resize_len]
    · intro h0; exact absurd hp h0
  · rw [if_neg hp]
    by_cases hf : pol = .onTheFly
    · refine ⟨_, (if_pos hf).trans rfl, rfl, rfl, rfl, fun h0 => absurd h0 hp, fun _ => ⟨?_, fun h0 => ?_⟩⟩
      · rw [hf]
        simp only [resize_nil]
        exact held_blank P _ _ _ hM
      · rw [hf]
        simp only [hh, h0, if_true, resize_nil]
        exact held_blank P _ _ _ (hR h0)
    · rw [if_neg hf]
      obtain ⟨c', e1, e2, e3, e4, e5⟩ := calcAll_good (P := P) (pol := pol) (w := w) (n := n) (ng0 := ngs.getD 0 0)
        (M := mainQ P ngs) (R := redQ P n (ngs.getD 0 0))
        (c := { c with
          nderiv := nd
          nTotal := total P (mainQ P ngs)
          nTotalRed := if (redQ P n (ngs.getD 0 0)).isSet then total P (redQ P n (ngs.getD 0 0)) else c.nTotalRed
          values := resize [] (total P (mainQ P ngs))
          valuesRed := if hasReduced (redQ P n (ngs.getD 0 0)) then
              resize [] (if (redQ P n (ngs.getD 0 0)).isSet then total P (redQ P n (ngs.getD 0 0)) else c.nTotalRed)
              else [] })
        hi hd hM hR hh hp (by simp only [resize_nil]) (fun h0 => by simp only [hh, h0, if_true, resize_nil])
      refine ⟨c', ?_, e2, e3, e4, e5 _⟩
      rw [e1]; rfl

theorem point_reset (P : Patch K V) (hd : P.knots.length = 2 ∨ P.knots.length = 3) (el gp : Nat) :
    point P (Quad.reset K P.knots.length) el gp = none := by
  have e : gpIndex (Quad.reset K P.knots.length).ng gp = none := by
    rcases hd with h | h <;> simp [Quad.reset, h, List.replicate_succ, gpIndex]
  unfold point
  cases h : P.kind <;> simp [splinePt, lagPt, e]

theorem held_set {P : Patch K V} {pol : Policy} {b : Int} {k : Nat} {q : Quad K} {l : List (Vals V)}
    (h : Held P pol b k q l) {i : Nat} {v : Vals V} {pt : List K} (hp : (pts P q)[i]? = some pt)
    (hv : HoldsAt P b k v pt) : Held P pol b k q (l.set i v) := by
  refine ⟨by rw [List.length_set]; exact h.1, fun j v' pt' hj hq => ?_⟩
  rw [List.getElem?_set] at hj
  split at hj
  · rename_i hij
    split at hj
    · cases hj
      subst hij
      rw [hp] at hq; cases hq
      exact Or.inr hv
    · cases hj
  · exact h.2 j v' pt' hj hq

/-- What a cache must satisfy to be asked. -/
structure Live (P : Patch K V) (pol : Policy) (ngs : List Nat) (n : Int) (w th : Nat) (c : Cache V) : Prop where
  itg : ItgOK P w n (ngs.getD 0 0) c.itg
  der : DerOK P c.nderiv
  good : Good P pol (mainQ P ngs) (redQ P n (ngs.getD 0 0)) w th c

theorem vals_false (c : Cache V) : c.vals false = c.values := rfl
theorem vals_true (c : Cache V) : c.vals true = c.valuesRed := rfl

theorem good_set {P : Patch K V} {pol : Policy} {M R : Quad K} {w th : Nat} {c : Cache V}
    (h : Good P pol M R w th c) (reduced : Bool) (l : List (Vals V))
    (h1 : pol = .noCache → l.length = (c.vals reduced).length)
    (h2 : pol ≠ .noCache → reduced = false → Held P pol c.basis (lvl P w c.nderiv) M l)
    (h3 : pol ≠ .noCache → reduced = true → R.isSet = true → Held P pol c.basis (lvlR P w) R l) :
    Good P pol M R w th (c.setVals reduced l) := by
  cases reduced
  · refine ⟨fun hp => ⟨(h1 hp).trans (h.1 hp).1, (h.1 hp).2⟩, fun hp => ⟨h2 hp rfl, (h.2 hp).2⟩⟩
  · refine ⟨fun hp => ⟨(h.1 hp).1, fun h0 => (h1 hp).trans ((h.1 hp).2 h0)⟩,
      fun hp => ⟨(h.2 hp).1, fun h0 => h3 hp rfl h0⟩⟩

theorem setVals_same (c : Cache V) (r : Bool) (l : List (Vals V)) :
    (c.setVals r l).basis = c.basis ∧ (c.setVals r l).nderiv = c.nderiv ∧ (c.setVals r l).itg = c.itg := by
  cases r <;> exact ⟨rfl, rfl, rfl⟩

theorem getVals_same {P : Patch K V} {pol : Policy} {st : St K V} {c c' : Cache V} {v : Vals V} {t el gp : Nat}
    {reduced : Bool} (h : getVals P pol st c t el gp reduced = some (c', v)) :
    c'.basis = c.basis ∧ c'.nderiv = c.nderiv ∧ c'.itg = c.itg := by
  unfold getVals at h
  dsimp only at h
  split at h
  · split at h
    · rw [Option.map_eq_some_iff] at h
      obtain ⟨a, -, h⟩ := h
      cases h
      exact setVals_same _ _ _
    · cases h
  · rw [Option.bind_eq_some_iff] at h
    obtain ⟨i, -, h⟩ := h
    rw [Option.bind_eq_some_iff] at h
    obtain ⟨v0, -, h⟩ := h
    split at h
    · rw [Option.map_eq_some_iff] at h
      obtain ⟨a, -, h⟩ := h
      cases h
      exact setVals_same _ _ _
    · cases h; exact ⟨rfl, rfl, rfl⟩

theorem getVals_keep {P : Patch K V} {pol : Policy} {ngs : List Nat} {n : Int} (hR : Rules P ngs n) {w : Nat}
    {st : St K V} {c c' : Cache V} (hq : QuadsOK P ngs n st) {th : Nat} (hl : Live P pol ngs n w th c)
    {t el gp : Nat} {reduced : Bool} {v : Vals V} (h : getVals P pol st c t el gp reduced = some (c', v)) :
    Live P pol ngs n w th c' := by
  have hs := getVals_same h
  refine ⟨by rw [hs.2.2]; exact hl.itg, by rw [hs.2.1]; exact hl.der, ?_⟩
  unfold getVals at h
  dsimp only at h
  split at h
  · rename_i hp
    split at h
    · rw [Option.map_eq_some_iff] at h
      obtain ⟨a, -, h⟩ := h
      cases h
      exact good_set hl.good _ _ (fun _ => by rw [List.length_set]) (fun h0 => absurd hp h0) (fun h0 => absurd hp h0)
    · cases h
  · rename_i hp
    rw [Option.bind_eq_some_iff] at h
    obtain ⟨i, hidx, h⟩ := h
    rw [Option.bind_eq_some_iff] at h
    obtain ⟨v0, hv0, h⟩ := h
    split at h
    · rw [Option.map_eq_some_iff] at h
      obtain ⟨a, hca, h⟩ := h
      cases h
      obtain ⟨j, hj1, hj2, hc⟩ := calc_eq hl.itg hl.der (if reduced then st.red else st.main)
      rw [hc, Option.map_eq_some_iff] at hca
      obtain ⟨pt, hpt, rfl⟩ := hca
      rcases hq with ⟨q1, q2⟩ | ⟨q1, q2⟩
      · cases reduced
        · simp only [q1, Bool.false_eq_true, if_false] at hidx hpt
          refine good_set hl.good _ _ (fun h0 => absurd h0 hp) (fun _ _ => ?_) (fun _ h0 => by simp at h0)
          exact held_set (hl.good.2 hp).1 ((qok (shape_main P ngs n hR)).idx _ _ _ _ hidx hpt)
            (holds_valsOf _ _ _ _ hj1 _)
        · simp only [q2, if_true] at hidx hpt
          refine good_set hl.good _ _ (fun h0 => absurd h0 hp) (fun _ h0 => by simp at h0) (fun _ _ h0 => ?_)
          have h1 : 0 < n := by rw [red_isSet P ngs n hR] at h0; simpa using h0
          exact held_set ((hl.good.2 hp).2 h0) ((qok (shape_red P ngs n hR _ h1)).idx _ _ _ _ hidx hpt)
            (holds_valsOf _ _ _ _ hj2 _)
      · exfalso
        have : (if reduced then st.red else st.main) = Quad.reset K P.knots.length := by cases reduced <;> simp [q1, q2]
        rw [this, point_reset P hR.dim] at hpt
        cases hpt
    · cases h; exact hl.good

theorem getVals_right {P : Patch K V} {pol : Policy} {ngs : List Nat} {n : Int} (hR : Rules P ngs n) {w : Nat}
    {st : St K V} {c : Cache V} (q1 : st.main = mainQ P ngs) (q2 : st.red = redQ P n (ngs.getD 0 0))
    {th : Nat} (hl : Live P pol ngs n w th c) {t el gp i : Nat} {reduced : Bool} {pt : List K} (ht : t < th)
    (hr : reduced = true → 0 < n)
    (hidx : index P (if reduced then redQ P n (ngs.getD 0 0) else mainQ P ngs) el gp = some i)
    (hpt : point P (if reduced then redQ P n (ngs.getD 0 0) else mainQ P ngs) el gp = some pt) :
    ∃ c' v, getVals P pol st c t el gp reduced = some (c', v) ∧
      HoldsAt P c.basis (if reduced then lvlR P w else lvl P w c.nderiv) v pt := by
  obtain ⟨j, hj1, hj2, hc⟩ := calc_eq hl.itg hl.der (if reduced then redQ P n (ngs.getD 0 0) else mainQ P ngs)
  have hj : (if reduced then lvlR P w else lvl P w c.nderiv) ≤ j := by cases reduced <;> assumption
  have hcalc : calculatePt P (if reduced then redQ P n (ngs.getD 0 0) else mainQ P ngs) c el gp =
      some (valsOf P c.basis j pt) := by rw [hc, hpt]; rfl
  unfold getVals
  simp only [q1, q2]
  by_cases hp : pol = .noCache
  · have hlen : t < (c.vals reduced).length := by
      have := hl.good.1 hp
      cases reduced
      · rw [vals_false, this.1]; exact ht
      · rw [vals_true, this.2 (by rw [red_isSet P ngs n hR]; simpa using hr rfl)]; exact ht
    rw [if_pos hp, if_pos hlen, hcalc]
    exact ⟨_, _, rfl, holds_valsOf _ _ _ _ hj _⟩
  · rw [if_neg hp, hidx]
    have hheld : Held P pol c.basis (if reduced then lvlR P w else lvl P w c.nderiv)
        (if reduced then redQ P n (ngs.getD 0 0) else mainQ P ngs) (c.vals reduced) := by
      have := hl.good.2 hp
      cases reduced
      · exact this.1
      · exact this.2 (by rw [red_isSet P ngs n hR]; simpa using hr rfl)
    have hg : (pts P (if reduced then redQ P n (ngs.getD 0 0) else mainQ P ngs))[i]? = some pt := by
      cases reduced
      · exact (qok (shape_main P ngs n hR)).idx _ _ _ _ hidx hpt
      · exact (qok (shape_red P ngs n hR _ (hr rfl))).idx _ _ _ _ hidx hpt
    have hi : i < (c.vals reduced).length := by rw [hheld.1]; exact (List.getElem?_eq_some_iff.1 hg).1
    obtain ⟨v, hv⟩ : ∃ v, (c.vals reduced)[i]? = some v := ⟨_, List.getElem?_eq_getElem hi⟩
    simp only [Option.bind_some, hv]
    by_cases hf : pol = .onTheFly ∧ v.N.isNone = true
    · rw [if_pos hf, hcalc]
      exact ⟨_, _, rfl, holds_valsOf _ _ _ _ hj _⟩
    · rw [if_neg hf]
      rcases hheld.2 i v pt hv hg with h0 | h0
      · exact absurd ⟨h0.1, by simp [h0.2]⟩ hf
      · exact ⟨_, _, rfl, h0⟩

/-- The order asked for by the last `init` of each cache, unless it has been cleared since. -/
def live (o : Op) (f : Nat → Option Nat) : Nat → Option Nat :=
  match o with
  | .init b nd => fun j => if j = b then some nd else f j
  | .clear b => fun j => if j = b then none else f j
  | _ => f

/-- Operations that leave the Gauss rules and the reduced integration as they are.  `z`: the number of threads
changes while nothing is cached, and nothing is cleared. -/
def FairOp (P : Patch K V) (pol : Policy) (ngs : List Nat) (n : Int) (w : Nat) (z : Bool) : Op → Prop
  | .setItg _ i => ItgOK P w n (ngs.getD 0 0) (some i)
  | .init _ nd => DerOK P nd ∧ (z = true → 1 ≤ nd)
  | .clear _ => z = false
  | .get _ _ _ _ _ => True
  | .threads _ => z = true ∨ pol ≠ .noCache
  | .setGauss m => m = ngs

structure CInv (P : Patch K V) (pol : Policy) (ngs : List Nat) (n : Int) (w : Nat) (z : Bool) (th b : Nat)
    (lb : Option Nat) (c : Cache V) : Prop where
  first : c.basis = 1 ↔ b = 0
  itg : ItgOK P w n (ngs.getD 0 0) c.itg
  dead : lb = none → (z = true → c.nderiv = 0) ∧ (z = false → c.values = [] ∧ c.valuesRed = [])
  alive : ∀ nd, lb = some nd → nd ≤ c.nderiv ∧ Live P pol ngs n w th c

structure Inv (P : Patch K V) (pol : Policy) (ngs : List Nat) (n : Int) (w : Nat) (z : Bool) (st : St K V)
    (lv : Nat → Option Nat) : Prop where
  hn : st.ngs = ngs
  quads : QuadsOK P ngs n st
  set0 : (lv 0).isSome = true ∨ (z = true ∧ ∃ b, (lv b).isSome = true) →
    st.main = mainQ P ngs ∧ st.red = redQ P n (ngs.getD 0 0)
  caches : ∀ b c, st.caches[b]? = some c → CInv P pol ngs n w z st.threads b (lv b) c

theorem set_get {α : Type} {l : List α} {b j : Nat} {x y : α} (h : (l.set b x)[j]? = some y) :
    (j = b ∧ y = x) ∨ (j ≠ b ∧ l[j]? = some y) := by
  rw [List.getElem?_set] at h
  split at h
  · rename_i hb
    split at h
    · cases h; exact Or.inl ⟨hb.symm, rfl⟩
    · cases h
  · rename_i hb
    exact Or.inr ⟨fun h => hb h.symm, h⟩

variable {P : Patch K V} {pol : Policy} {ngs : List Nat} {n : Int} {w : Nat} {z : Bool} {st st' : St K V}
  {lv : Nat → Option Nat}

theorem inv_get (hR : Rules P ngs n) (h : Inv P pol ngs n w z st lv) {b t el gp : Nat} {red : Bool}
    {v : Option (Vals V)} (hs : step P pol st (.get b t el gp red) = some (st', v)) :
    Inv P pol ngs n w z st' lv := by
  simp only [step, Option.bind_eq_some_iff, Option.map_eq_some_iff] at hs
  obtain ⟨c, hc, ⟨c', v'⟩, hg, he⟩ := hs
  cases he
  refine ⟨h.hn, h.quads, h.set0, fun j y hy => ?_⟩
  rcases set_get hy with ⟨rfl, rfl⟩ | ⟨-, hy⟩
  · have hC := h.caches _ _ hc
    have hs := getVals_same hg
    refine ⟨by rw [hs.1]; exact hC.first, by rw [hs.2.2]; exact hC.itg, fun hl => ⟨fun hz => ?_, fun hz => ?_⟩, fun nd hl => ?_⟩
    · rw [hs.2.1]; exact (hC.dead hl).1 hz
    · exfalso
      obtain ⟨e1, e2⟩ := (hC.dead hl).2 hz
      have : c.vals red = [] := by cases red <;> simp [Cache.vals, e1, e2]
      unfold getVals at hg
      simp only [this, List.length_nil, Nat.not_lt_zero, if_false, List.getElem?_nil, Option.bind_none] at hg
      split at hg
      · cases hg
      · simp at hg
    · rw [hs.2.1]
      exact ⟨(hC.alive nd hl).1, getVals_keep hR h.quads (hC.alive nd hl).2 hg⟩
  · exact h.caches _ _ hy

theorem inv_init (hR : Rules P ngs n) (h : Inv P pol ngs n w z st lv) {b nd : Nat} {v : Option (Vals V)}
    (hf : FairOp P pol ngs n w z (.init b nd)) (hs : step P pol st (.init b nd) = some (st', v)) :
    Inv P pol ngs n w z st' (live (.init b nd) lv) := by
  simp only [step, Option.bind_eq_some_iff, Option.map_eq_some_iff] at hs
  obtain ⟨c, hc, ⟨s1, c'⟩, hi, he⟩ := hs
  cases he
  have hC := h.caches _ _ hc
  unfold initCache at hi
  split at hi
  · rename_i hcond
    cases hi
    -- nothing to do
    have hlive : (lv b).isSome = true := by
      by_contra hn
      have hn : lv b = none := by simpa using hn
      cases z with
      | true => have := (hC.dead hn).1 rfl; have := hf.2 rfl; omega
      | false => exact hcond.1 ((hC.dead hn).2 rfl).1
    obtain ⟨m, hm⟩ := Option.isSome_iff_exists.1 hlive
    refine ⟨h.hn, h.quads, ?_, fun j y hy => ?_⟩
    · rintro (h0 | ⟨hz, j, hj⟩)
      · refine h.set0 (Or.inl ?_)
        by_cases hb : 0 = b
        · rw [hb]; exact hlive
        · simpa [live, hb] using h0
      · exact h.set0 (Or.inr ⟨hz, b, hlive⟩)
    · rcases set_get hy with ⟨rfl, rfl⟩ | ⟨hne, hy⟩
      · refine ⟨hC.first, hC.itg, fun hl => by simp [live] at hl, fun nd' hl => ?_⟩
        simp only [live, if_true, Option.some.injEq] at hl
        subst hl
        exact ⟨hcond.2, (hC.alive m hm).2⟩
      · have := h.caches _ _ hy
        simpa [live, hne] using this
  · obtain ⟨c1, e1, e2, e3, e4, e5⟩ := rebuild_good (pol := pol) hR h.quads h.hn hC.itg hf.1
    rw [e1] at hi
    cases hi
    refine ⟨h.hn, Or.inl ⟨rfl, rfl⟩, fun _ => ⟨rfl, rfl⟩, fun j y hy => ?_⟩
    rcases set_get hy with ⟨rfl, rfl⟩ | ⟨hne, hy⟩
    · refine ⟨by rw [e2]; exact hC.first, by rw [e4]; exact hC.itg, fun hl => by simp [live] at hl, fun nd' hl => ?_⟩
      simp only [live, if_true, Option.some.injEq] at hl
      subst hl
      exact ⟨by rw [e3], ⟨by rw [e4]; exact hC.itg, by rw [e3]; exact hf.1, e5⟩⟩
    · have := h.caches _ _ hy
      simpa [live, hne] using this

theorem inv_clear (h : Inv P pol ngs n w z st lv) {b : Nat} {v : Option (Vals V)}
    (hf : FairOp P pol ngs n w z (.clear b)) (hs : step P pol st (.clear b) = some (st', v)) :
    Inv P pol ngs n w z st' (live (.clear b) lv) := by
  simp only [FairOp] at hf
  subst hf
  simp only [step, Option.map_eq_some_iff] at hs
  obtain ⟨c, hc, he⟩ := hs
  have hC := h.caches _ _ hc
  obtain ⟨s, e, h1, h2, h3, h4, h5⟩ := clear_eq P st c
  simp only [e] at he
  cases he
  refine ⟨h2.trans h.hn, ?_, ?_, fun j y hy => ?_⟩
  · by_cases hb : c.basis = 1
    · exact Or.inr (h4 hb)
    · rw [h5 hb]; exact h.quads
  · rintro (h0 | ⟨hz, -⟩)
    · have hb : (0 : Nat) ≠ b := by
        rintro rfl
        simp [live] at h0
      have hb' : c.basis ≠ 1 := fun h0 => hb (hC.first.1 h0).symm
      rw [h5 hb']
      exact h.set0 (Or.inl (by simpa [live, hb] using h0))
    · cases hz
  · rw [h1] at hy
    rcases set_get hy with ⟨rfl, rfl⟩ | ⟨hne, hy⟩
    · refine ⟨hC.first, hC.itg, fun _ => ⟨fun h0 => (by cases h0), fun _ => ⟨rfl, rfl⟩⟩, fun nd hl => (by simp [live] at hl)⟩
    · have := h.caches _ _ hy
      simpa [live, hne, h3] using this

theorem inv_setItg (h : Inv P pol ngs n w z st lv) {b : Nat} {i : Itg} {v : Option (Vals V)}
    (hf : FairOp P pol ngs n w z (.setItg b i)) (hs : step P pol st (.setItg b i) = some (st', v)) :
    Inv P pol ngs n w z st' lv := by
  simp only [step, Option.map_eq_some_iff] at hs
  obtain ⟨c, hc, he⟩ := hs
  cases he
  refine ⟨h.hn, h.quads, h.set0, fun j y hy => ?_⟩
  rcases set_get hy with ⟨rfl, rfl⟩ | ⟨-, hy⟩
  · have hC := h.caches _ _ hc
    exact ⟨hC.first, hf, hC.dead, fun nd hl => ⟨(hC.alive nd hl).1, hf, (hC.alive nd hl).2.der, (hC.alive nd hl).2.good⟩⟩
  · exact h.caches _ _ hy

theorem inv_threads (hR : Rules P ngs n) (h : Inv P pol ngs n w z st lv) {m : Nat} {v : Option (Vals V)}
    (hf : FairOp P pol ngs n w z (.threads m)) (hs : step P pol st (.threads m) = some (st', v)) :
    Inv P pol ngs n w z st' lv := by
  simp only [step] at hs
  cases hs
  by_cases hp : pol = .noCache
  · have hz : z = true := by rcases hf with h0 | h0; exact h0; exact absurd hp h0
    refine ⟨h.hn, h.quads, h.set0, fun j y hy => ?_⟩
    simp only [List.getElem?_map, Option.map_eq_some_iff] at hy
    obtain ⟨c, hc, rfl⟩ := hy
    have hC := h.caches _ _ hc
    have e1 : (resizeBuffers pol st.red m c).basis = c.basis := by simp [resizeBuffers, hp]
    have e2 : (resizeBuffers pol st.red m c).itg = c.itg := by simp [resizeBuffers, hp]
    have e3 : (resizeBuffers pol st.red m c).nderiv = c.nderiv := by simp [resizeBuffers, hp]
    refine ⟨by rw [e1]; exact hC.first, by rw [e2]; exact hC.itg,
      fun hl => ⟨fun _ => by rw [e3]; exact (hC.dead hl).1 hz, fun h0 => by rw [hz] at h0; cases h0⟩, fun nd hl => ?_⟩
    have hA := hC.alive nd hl
    obtain ⟨-, q2⟩ := h.set0 (Or.inr ⟨hz, j, by simp [hl]⟩)
    refine ⟨by rw [e3]; exact hA.1, by rw [e2]; exact hA.2.itg, by rw [e3]; exact hA.2.der, fun _ => ⟨?_, fun h0 => ?_⟩,
      fun h0 => absurd hp h0⟩
    · simp only [resizeBuffers, hp, if_true, resize_len]
    · have : hasReduced (redQ P n (ngs.getD 0 0)) = true := by rw [red_has P ngs n hR, ← red_isSet P ngs n hR]; exact h0
      simp only [resizeBuffers, hp, if_true, q2, this, resize_len]
  · refine ⟨h.hn, h.quads, h.set0, fun j y hy => ?_⟩
    simp only [List.getElem?_map, Option.map_eq_some_iff] at hy
    obtain ⟨c, hc, rfl⟩ := hy
    have e : resizeBuffers pol st.red m c = c := by simp [resizeBuffers, hp]
    rw [e]
    have hC := h.caches _ _ hc
    exact ⟨hC.first, hC.itg, hC.dead, fun nd hl => ⟨(hC.alive nd hl).1, (hC.alive nd hl).2.itg, (hC.alive nd hl).2.der,
      fun h0 => absurd h0 hp, (hC.alive nd hl).2.good.2⟩⟩

theorem inv_step (hR : Rules P ngs n) (h : Inv P pol ngs n w z st lv) {o : Op} {v : Option (Vals V)}
    (hf : FairOp P pol ngs n w z o) (hs : step P pol st o = some (st', v)) :
    Inv P pol ngs n w z st' (live o lv) := by
  cases o with
  | setItg b i => exact inv_setItg h hf hs
  | init b nd => exact inv_init hR h hf hs
  | clear b => exact inv_clear h hf hs
  | get b t el gp red => exact inv_get hR h hs
  | threads m => exact inv_threads hR h hf hs
  | setGauss m =>
    simp only [step] at hs
    cases hs
    exact ⟨hf, h.quads, h.set0, h.caches⟩

/-- The order asked for by the last `init` of each cache after a sequence of operations. -/
def lives (ops : List Op) (f : Nat → Option Nat) : Nat → Option Nat := ops.foldl (fun f o => live o f) f

theorem inv_run (hR : Rules P ngs n) : ∀ (ops : List Op) (st : St K V) (lv : Nat → Option Nat),
    Inv P pol ngs n w z st lv → (∀ o ∈ ops, FairOp P pol ngs n w z o) → ∀ st', run P pol ops st = some st' →
    Inv P pol ngs n w z st' (lives ops lv)
  | [], st, lv, h, _, st', hr => by cases hr; exact h
  | o :: os, st, lv, h, hf, st', hr => by
    simp only [run, Option.bind_eq_some_iff] at hr
    obtain ⟨⟨s1, v⟩, hs, hr⟩ := hr
    exact inv_run hR os s1 (live o lv) (inv_step hR h (hf o (by simp)) hs) (fun o' ho => hf o' (by simp [ho])) st' hr

theorem inv_fresh (bs : List Int) (hb : (1 : Int) ∉ bs) (itg : Option Itg) (hi : ItgOK P w n (ngs.getD 0 0) itg) (th : Nat) :
    Inv P pol ngs n w z (fresh P (1 :: bs) itg ngs th) (fun _ => none) := by
  refine ⟨rfl, Or.inr ⟨rfl, rfl⟩, by simp, fun b c hc => ?_⟩
  simp only [fresh, List.getElem?_map, Option.map_eq_some_iff] at hc
  obtain ⟨a, ha, rfl⟩ := hc
  refine ⟨?_, hi, fun _ => ⟨fun _ => rfl, fun _ => ⟨rfl, rfl⟩⟩, fun nd h => by cases h⟩
  cases b with
  | zero => simp at ha; simp [ha]
  | succ j =>
    rw [List.getElem?_cons_succ] at ha
    refine ⟨fun h0 => ?_, fun h0 => by omega⟩
    simp only at h0
    rw [h0] at ha
    exact absurd (List.mem_of_getElem? ha) hb

end IFEM.BCache
