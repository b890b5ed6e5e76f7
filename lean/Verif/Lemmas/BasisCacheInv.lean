import Verif.Lemmas.BasisCache

/-! The quadratures a cache sets up, and the invariant of the caches of a patch. -/

namespace IFEM.BCache

variable {K V : Type} [Field K]

/-- The patch is a surface or a volume, the Gauss rules it asks for (and the reduced one) are in the table, and
it has elements. -/
structure Rules (P : Patch K V) (ngs : List Nat) (n : Int) : Prop where
  dim : P.knots.length = 2 ∨ P.knots.length = 3
  len : ngs.length = P.knots.length
  main : ∀ m ∈ ngs, ∃ x, P.rule m = some x ∧ x.length = m
  red : 0 < n → ∃ x, P.rule n.toNat = some x ∧ x.length = n.toNat
  elms : ∀ k ∈ P.knots, 2 ≤ k.length

def mainQ (P : Patch K V) (ngs : List Nat) : Quad K :=
  { ng := ngs, xg := ngs.map P.rule, gpar := params P ⟨ngs, ngs.map P.rule, []⟩ }

def redQ (P : Patch K V) (n : Int) (ng0 : Nat) : Quad K :=
  let dim := P.knots.length
  if n > 0 then
    { ng := List.replicate dim n.toNat, xg := List.replicate dim (P.rule n.toNat),
      gpar := params P ⟨[], List.replicate dim (P.rule n.toNat), []⟩ }
  else { Quad.reset K dim with ng := List.replicate dim (if n < 0 then ng0 else 0) }

theorem params_congr (P : Patch K V) (q q' : Quad K) (h : q.xg = q'.xg) : params P q = params P q' := by
  unfold params; rw [h]

theorem setRed_eq (P : Patch K V) (n : Int) (ng0 : Nat) (hd : P.knots.length ≠ 0)
    (hr : 0 < n → ∃ x, P.rule n.toNat = some x) :
    (setRed P P.knots.length n ng0 (Quad.reset K P.knots.length)).2 = true ∧
    (let r := (setRed P P.knots.length n ng0 (Quad.reset K P.knots.length)).1
     (if r.isSet then { r with gpar := params P r } else r)) = redQ P n ng0 := by
  obtain ⟨m, hm⟩ : ∃ m, P.knots.length = m + 1 := ⟨P.knots.length - 1, by omega⟩
  unfold setRed redQ
  by_cases h : 0 < n
  · obtain ⟨x, hx⟩ := hr h
    simp only [gt_iff_lt, h, if_true, hx, Option.isSome_some, Quad.isSet]
    simp only [hm, List.replicate_succ, List.getD_cons_zero, Option.isSome_some, if_true, true_and]
    congr 1
  · by_cases h2 : n < 0
    · simp [h, h2, Quad.isSet, Quad.reset, hm, List.replicate_succ]
    · simp [h, h2, Quad.isSet, Quad.reset, hm, List.replicate_succ]

theorem setMain_eq (P : Patch K V) (ngs : List Nat) (n : Int) (h : Rules P ngs n) :
    setMain P ngs (List.range P.knots.length) (Quad.reset K P.knots.length) =
      (⟨ngs, ngs.map P.rule, List.replicate P.knots.length []⟩, true) := by
  have hl := h.len
  rcases h.dim with hd | hd
  · rw [hd] at hl ⊢
    obtain ⟨a, b, rfl⟩ := len2 hl
    obtain ⟨x, hx, -⟩ := h.main a (by simp)
    obtain ⟨y, hy, -⟩ := h.main b (by simp)
    have : List.range 2 = [0, 1] := rfl
    simp [this, setMain, setDir, Quad.reset, hx, hy]
  · rw [hd] at hl ⊢
    obtain ⟨a, b, c, rfl⟩ := len3 hl
    obtain ⟨x, hx, -⟩ := h.main a (by simp)
    obtain ⟨y, hy, -⟩ := h.main b (by simp)
    obtain ⟨z, hz, -⟩ := h.main c (by simp)
    have : List.range 3 = [0, 1, 2] := rfl
    simp [this, setMain, setDir, Quad.reset, hx, hy, hz]

theorem setup_eq (P : Patch K V) (ngs : List Nat) (n : Int) (h : Rules P ngs n) (itg : Option Itg)
    (hn : nRed itg (ngs.getD 0 0) = n) :
    setup P ngs itg (Quad.reset K P.knots.length) (Quad.reset K P.knots.length) =
      (mainQ P ngs, redQ P n (ngs.getD 0 0), true) := by
  have hd : P.knots.length ≠ 0 := by rcases h.dim with h | h <;> omega
  have a := setRed_eq P n (ngs.getD 0 0) hd (fun h0 => (h.red h0).imp fun x hx => hx.1)
  simp only [setup, setMain_eq P ngs n h, if_true, hn, a.1]
  rw [show (if (setRed P P.knots.length n (ngs.getD 0 0) (Quad.reset K P.knots.length)).1.isSet = true then
      { (setRed P P.knots.length n (ngs.getD 0 0) (Quad.reset K P.knots.length)).1 with
        gpar := params P (setRed P P.knots.length n (ngs.getD 0 0) (Quad.reset K P.knots.length)).1 }
      else (setRed P P.knots.length n (ngs.getD 0 0) (Quad.reset K P.knots.length)).1)
      = redQ P n (ngs.getD 0 0) from a.2]
  congr 1

theorem main_isSet (P : Patch K V) (ngs : List Nat) (n : Int) (h : Rules P ngs n) : (mainQ P ngs).isSet = true := by
  have hl := h.len
  rcases h.dim with hd | hd <;> rw [hd] at hl
  · obtain ⟨a, b, rfl⟩ := len2 hl
    obtain ⟨x, hx, -⟩ := h.main a (by simp)
    simp [Quad.isSet, mainQ, hx]
  · obtain ⟨a, b, c, rfl⟩ := len3 hl
    obtain ⟨x, hx, -⟩ := h.main a (by simp)
    simp [Quad.isSet, mainQ, hx]

theorem reset_isSet (dim : Nat) : (Quad.reset K dim).isSet = false := by
  cases dim <;> simp [Quad.isSet, Quad.reset, List.replicate_succ]

theorem red_isSet (P : Patch K V) (ngs : List Nat) (n : Int) (h : Rules P ngs n) (m : Nat) :
    (redQ P n m).isSet = decide (0 < n) := by
  have hd : P.knots.length ≠ 0 := by rcases h.dim with h | h <;> omega
  obtain ⟨j, hj⟩ : ∃ j, P.knots.length = j + 1 := ⟨P.knots.length - 1, by omega⟩
  unfold redQ
  by_cases h0 : 0 < n
  · obtain ⟨x, hx, -⟩ := h.red h0
    simp [h0, Quad.isSet, hj, List.replicate_succ, hx]
  · simp [h0, Quad.isSet, Quad.reset, hj, List.replicate_succ]

theorem shape_main (P : Patch K V) (ngs : List Nat) (n : Int) (h : Rules P ngs n) : Shape P (mainQ P ngs) := by
  refine ⟨h.len, h.dim, ?_, ?_⟩
  · intro hs
    have hl := h.len
    rcases h.dim with hd | hd <;> rw [hd] at hl
    · obtain ⟨a, b, rfl⟩ := len2 hl
      obtain ⟨k0, k1, hk⟩ := len2 hd
      obtain ⟨x, hx, lx⟩ := h.main a (by simp)
      obtain ⟨y, hy, ly⟩ := h.main b (by simp)
      refine ⟨by simp [mainQ, params, hs, hk], ?_⟩
      intro d h2
      rw [hd] at h2
      rcases (by omega : d = 0 ∨ d = 1) with rfl | rfl <;>
        simp [mainQ, params, hs, hk, Patch.nel, hx, hy, gaussPar_len, lx, ly]
    · obtain ⟨a, b, c, rfl⟩ := len3 hl
      obtain ⟨k0, k1, k2, hk⟩ := len3 hd
      obtain ⟨x, hx, lx⟩ := h.main a (by simp)
      obtain ⟨y, hy, ly⟩ := h.main b (by simp)
      obtain ⟨z, hz, lz⟩ := h.main c (by simp)
      refine ⟨by simp [mainQ, params, hs, hk], ?_⟩
      intro d h2
      rw [hd] at h2
      rcases (by omega : d = 0 ∨ d = 1 ∨ d = 2) with rfl | rfl | rfl <;>
        simp [mainQ, params, hs, hk, Patch.nel, hx, hy, hz, gaussPar_len, lx, ly, lz]
  · intro hs
    refine ⟨by simp [mainQ, h.len], ?_⟩
    intro d hd
    have hd' : d < ngs.length := by rw [h.len]; exact hd
    obtain ⟨x, hx, lx⟩ := h.main ngs[d] (List.getElem_mem hd')
    simp [mainQ, List.getElem?_eq_getElem hd', hx, lx]

theorem shape_red (P : Patch K V) (ngs : List Nat) (n : Int) (h : Rules P ngs n) (m : Nat) (h0 : 0 < n) :
    Shape P (redQ P n m) := by
  obtain ⟨x, hx, lx⟩ := h.red h0
  unfold redQ
  simp only [gt_iff_lt, h0, if_true]
  refine ⟨by simp, h.dim, ?_, ?_⟩
  · intro hs
    rcases h.dim with hd | hd
    · obtain ⟨k0, k1, hk⟩ := len2 hd
      refine ⟨by simp [params, hs, hk], ?_⟩
      intro d h2
      rw [hd] at h2
      rcases (by omega : d = 0 ∨ d = 1) with rfl | rfl <;>
        simp [params, hs, hk, Patch.nel, hx, gaussPar_len, lx, List.replicate_succ]
    · obtain ⟨k0, k1, k2, hk⟩ := len3 hd
      refine ⟨by simp [params, hs, hk], ?_⟩
      intro d h2
      rw [hd] at h2
      rcases (by omega : d = 0 ∨ d = 1 ∨ d = 2) with rfl | rfl | rfl <;>
        simp [params, hs, hk, Patch.nel, hx, gaussPar_len, lx, List.replicate_succ]
  · intro hs
    refine ⟨by simp, ?_⟩
    intro d hd
    simp [hd, hx, lx]

theorem red_has (P : Patch K V) (ngs : List Nat) (n : Int) (h : Rules P ngs n) (m : Nat) :
    hasReduced (redQ P n m) = decide (0 < n) := by
  by_cases h0 : 0 < n
  · obtain ⟨x, hx, lx⟩ := h.red h0
    have key : ((redQ P n m).gpar.getD 0 []) ≠ [] := by
      have hs := shape_red P ngs n h m h0
      unfold redQ
      simp only [gt_iff_lt, h0, if_true]
      by_cases hk : P.kind = .spline
      · have := (hs.2.2.1 hk).2 0 (by rcases h.dim with h | h <;> omega)
        intro hc
        unfold redQ at this
        simp only [gt_iff_lt, h0, if_true, hc] at this
        rcases h.dim with hd | hd
        · obtain ⟨k0, k1, hkk⟩ := len2 hd
          have e := h.elms k0 (by simp [hkk])
          simp [hkk, Patch.nel, List.replicate_succ] at this
          omega
        · obtain ⟨k0, k1, k2, hkk⟩ := len3 hd
          have e := h.elms k0 (by simp [hkk])
          simp [hkk, Patch.nel, List.replicate_succ] at this
          omega
      · have e1 : ∀ q : Quad K, params P q = P.knots := by
          intro q; unfold params; cases h : P.kind <;> first | rfl | exact absurd h hk
        rw [e1]
        rcases h.dim with hd | hd
        · obtain ⟨k0, k1, hkk⟩ := len2 hd
          have e := h.elms k0 (by simp [hkk])
          intro hc
          simp [hkk] at hc
          simp [hc] at e
        · obtain ⟨k0, k1, k2, hkk⟩ := len3 hd
          have e := h.elms k0 (by simp [hkk])
          intro hc
          simp [hkk] at hc
          simp [hc] at e
    simp [hasReduced, h0] at key ⊢
    exact key
  · have hd : P.knots.length ≠ 0 := by rcases h.dim with h | h <;> omega
    obtain ⟨j, hj⟩ : ∃ j, P.knots.length = j + 1 := ⟨P.knots.length - 1, by omega⟩
    simp [hasReduced, redQ, h0, Quad.reset, hj, List.replicate_succ]

end IFEM.BCache
