import Verif.Props.Depend
import Verif.Props.NodeVec
/-!
# C88: A simulator sees the current values of the fields it depends on: the vectors of a patch
-/
namespace IFEM.Dep
open IFEM.Spec IFEM.Lem IFEM.Props

variable {α : Type}

theorem ids_eq (p : Patch) (b : Bool) :
    ((List.range (nonLMnodes p.mlgn p.lms)).map fun i => getNodeID p.mlgn p.nxMap (i+1) b) = seenNodes p b := by
  unfold seenNodes nonLMnodes
  generalize (match p.lms with | [] => p.mlgn.length | l :: _ => l - 1) = n
  rw [List.range'_eq_map_range, List.map_map]
  apply List.map_congr_left
  intro i _
  unfold getNodeID
  dsimp only [Function.comp]
  rw [Nat.add_comm i 1]
  generalize (if b = true then (p.nxMap.lookup (1+i)).getD (1+i) else 1+i) = j
  by_cases c : j < 1 ∨ j > p.mlgn.length
  · rw [if_pos c]
    rcases c with c | c
    · rw [show j = 0 by omega]; rfl
    · rw [List.getD_eq_getElem?_getD, List.getElem?_eq_none (by simp; omega)]; rfl
  · rw [if_neg c]
    obtain ⟨k, rfl⟩ : ∃ k, j = k + 1 := ⟨j - 1, by omega⟩
    rfl

theorem extractNodeVec_fits (p : Patch) (g : List α) (nn : Nat) (basis : Int) (N n : Nat) (hn : n = if nn = 0 then p.nf else nn)
    (b : Bool) (hb : b = (decide (n = 1) || decide (basis < 0)))
    (hl : ∀ i ∈ seenNodes p b, 1 ≤ i ∧ i ≤ (N : Int)) (hg : n * N ≤ g.length) :
    ∃ v, extractNodeVec p.mlgn p.nxMap p.lms p.nf g nn basis = some v ∧ IsGather ((seenNodes p b).flatMap (uniformDofs n)) g v := by
  unfold extractNodeVec
  dsimp only
  rw [← hn, ← hb, ids_eq]
  obtain ⟨v, e, hv⟩ := extractNodeLoop_spec g n N hg (seenNodes p b) hl []
  exact ⟨v, by rw [e]; rfl, hv⟩

/-- The extraction of one dependent field on a patch gives the values of its nodes. -/
theorem C88_extract_values (dp : Dependency) (p : Patch) (g : List α) (hb : 0 ≤ dp.diffBasis) (hc : dp.components.natAbs < 256) (hf : DepFits dp p g) :
    ∃ v, extractVec dp p g = some v ∧ IsGather (depDofs dp p) g v := by
  unfold extractVec
  unfold DepFits at hf
  unfold depDofs
  cases hm : dp.madof with
  | some madof =>
    rw [hm] at hf
    dsimp only at hf ⊢
    obtain ⟨n, ndof, hlay, hl, hg⟩ := hf
    have hx := C22_extract_nodal hlay p.mlgn p.mlgn.length hl (Nat.le_refl _) g hg (-1) (by decide)
    have hnn : extractNodalVec p.mlgn p.nnod g madof (-1) = extractNodalVec p.mlgn p.mlgn.length g madof (-1) := by
      unfold extractNodalVec; simp
    rw [if_neg (by decide), ← hnn] at hx
    obtain ⟨v, e, hv⟩ := hx
    exact ⟨v, by rw [e]; rfl, hv⟩
  | none =>
    rw [hm] at hf
    dsimp only at hf ⊢
    obtain ⟨N, hl, hg⟩ := hf
    by_cases c : dp.diffBasis ≠ 0 ∧ dp.components ≠ noFields p (if dp.components < 0 then dp.components else dp.diffBasis)
    · rw [if_pos c]
      have hn : nComp dp p = p.nf := by unfold nComp; rw [if_pos (Or.inl c.1)]
      refine extractNodeVec_fits p g 0 0 N (nComp dp p) (by rw [hn]; rfl) _ ?_ hl hg
      unfold skipsAdded
      simp [c.1]
    · rw [if_neg c]
      rw [Nat.mod_eq_of_lt hc]
      refine extractNodeVec_fits p g dp.components.natAbs _ N (nComp dp p) ?_ _ ?_ hl hg
      · unfold nComp
        by_cases c0 : dp.diffBasis = 0
        · by_cases c1 : dp.components = 0
          · simp [c1]
          · simp [c0, c1]
        · have c2 : dp.components = noFields p (if dp.components < 0 then dp.components else dp.diffBasis) := by
            by_contra h; exact c ⟨c0, h⟩
          rw [if_pos (Or.inl c0)]
          unfold noFields at c2
          split at c2 <;> split at c2 <;> split <;> omega
      · unfold skipsAdded
        congr 1
        by_cases c0 : dp.diffBasis = 0
        · by_cases c1 : dp.components < 0
          · simp [c0, c1]
          · simp [c0, c1]
        · have c2 : dp.components = noFields p (if dp.components < 0 then dp.components else dp.diffBasis) := by
            by_contra h; exact c ⟨c0, h⟩
          have c3 : ¬ dp.components < 0 := by
            intro h
            rw [if_pos h] at c2
            unfold noFields at c2
            split at c2 <;> omega
          rw [if_neg c3]
          simp [c0, hb]

/-- The integrand uses the field of a dependency, and its simulator has a vector registered with the name. -/
def Usable (w : World α) (ig : Integrand α) (dp : Dependency) : Prop := ig.named dp.name ≠ none → getField w dp.sim dp.name ≠ none

/-- What the vector of the integrand for the field of a dependency contains: nothing if the global vector is empty, else the values of the
nodes of the patch. -/
def LocalValues (w : World α) (model : List Patch) (pindx : Nat) (dp : Dependency) (v : List α) : Prop :=
  ∃ gv, getField w dp.sim dp.name = some gv ∧ (w.vecs gv = [] → v = []) ∧
    (w.vecs gv ≠ [] → ∃ p, depPatch dp model pindx = some p ∧ IsGather (depDofs dp p) (w.vecs gv) v)

/-- The patch of a dependency exists and the global vector, if it is not empty, has values for all its nodes. -/
structure Ready (w : World α) (model : List Patch) (pindx : Nat) (dp : Dependency) : Prop where
  basis : 0 ≤ dp.diffBasis
  comps : dp.components.natAbs < 256
  fits : ∀ gv, getField w dp.sim dp.name = some gv → w.vecs gv ≠ [] → ∃ p, depPatch dp model pindx = some p ∧ DepFits dp p (w.vecs gv)

theorem patchOf_eq (dp : Dependency) (model : List Patch) (pindx : Nat) : patchOf dp model pindx = depPatch dp model pindx := by
  unfold patchOf depPatch
  by_cases h : pindx < dp.patches.length
  · rw [if_pos h, List.getElem?_eq_getElem h]
  · rw [if_neg h, List.getElem?_eq_none (l := dp.patches) (by omega)]

theorem giveField_loc (dp : Dependency) (p : Patch) (v : List α) (ig : Integrand α) :
    (giveField dp p v ig).loc = ig.loc ∧ (giveField dp p v ig).named = ig.named := by
  unfold giveField
  split
  · split <;> exact ⟨rfl, rfl⟩
  · exact ⟨rfl, rfl⟩

/-- One dependency. -/
theorem extractOne_spec (w : World α) (model : List Patch) (pindx : Nat) (dp : Dependency) (ig : Integrand α) (hr : Ready w model pindx dp) :
    ∃ ig' ok, extractOne w model pindx dp ig = some (ig', ok) ∧ (ok = true ↔ Usable w ig dp) ∧ ig'.named = ig.named ∧
      (∀ l, ig.named dp.name ≠ some l → ig'.loc l = ig.loc l) ∧
      (ok = false → ig' = ig) ∧
      (ok = true → ∀ l, ig.named dp.name = some l → LocalValues w model pindx dp (ig'.loc l)) := by
  unfold extractOne
  cases hn : ig.named dp.name with
  | none => exact ⟨ig, true, rfl, by simp [Usable, hn], rfl, fun _ _ => rfl, fun _ => rfl, fun _ l h => absurd h (by simp)⟩
  | some l =>
    dsimp only
    cases hg : getField w dp.sim dp.name with
    | none => exact ⟨ig, false, rfl, by simp [Usable, hn, hg], rfl, fun _ _ => rfl, fun _ => rfl, fun h => absurd h (by simp)⟩
    | some gv =>
      dsimp only
      have hu : Usable w ig dp := fun _ => by rw [hg]; simp
      by_cases he : w.vecs gv = []
      · rw [he]
        simp only [List.isEmpty_nil, if_true]
        refine ⟨_, true, rfl, by simp [hu], rfl, fun k hk => ?_, fun h => absurd h (by simp), fun _ k hk => ?_⟩
        · exact Function.update_of_ne (fun e => hk (by rw [e])) _ _
        · obtain rfl : l = k := by simpa using hk
          refine ⟨gv, hg, fun _ => ?_, fun h => absurd he h⟩
          exact Function.update_self _ _ _
      · have he' : (w.vecs gv).isEmpty = false := by simpa using he
        rw [he', if_neg (by simp)]
        obtain ⟨p, hp, hf⟩ := hr.fits gv hg he
        obtain ⟨v, ev, hv⟩ := C88_extract_values dp p (w.vecs gv) hr.basis hr.comps hf
        rw [patchOf_eq, hp]
        dsimp only
        rw [ev]
        dsimp only
        refine ⟨_, true, rfl, by simp [hu], ?_, fun k hk => ?_, fun h => absurd h (by simp), fun _ k hk => ?_⟩
        · rw [(giveField_loc _ _ _ _).2]
        · rw [(giveField_loc _ _ _ _).1]
          exact Function.update_of_ne (fun e => hk (by rw [e])) _ _
        · obtain rfl : l = k := by simpa using hk
          rw [(giveField_loc _ _ _ _).1]
          refine ⟨gv, hg, fun h => absurd h he, fun _ => ⟨p, hp, ?_⟩⟩
          dsimp only
          rw [Function.update_self]
          exact hv

theorem extractDeps_spec (w : World α) (model : List Patch) (pindx : Nat) (dps : List Dependency) (ig : Integrand α)
    (hr : ∀ dp ∈ dps, Ready w model pindx dp) :
    ∃ ig' ok, extractDeps w model pindx dps ig = some (ig', ok) ∧ (ok = true ↔ ∀ dp ∈ dps, Usable w ig dp) ∧ ig'.named = ig.named ∧
      (∀ l, (∀ dp ∈ dps, ig.named dp.name ≠ some l) → ig'.loc l = ig.loc l) ∧
      (ok = true → ∀ (pre post : List Dependency) (dp : Dependency) (l : Nat), dps = pre ++ dp :: post → ig.named dp.name = some l →
        (∀ e ∈ post, ig.named e.name ≠ some l) → LocalValues w model pindx dp (ig'.loc l)) := by
  induction dps generalizing ig with
  | nil => exact ⟨ig, true, rfl, by simp, rfl, fun _ _ => rfl, fun _ pre post dp l e => absurd e (by simp)⟩
  | cons d ds ih =>
    obtain ⟨ig1, ok1, e1, hu1, hn1, hl1, hf1, hv1⟩ := extractOne_spec w model pindx d ig (hr d List.mem_cons_self)
    unfold extractDeps
    rw [e1]
    cases ok1 with
    | false =>
      dsimp only
      refine ⟨ig1, false, rfl, ?_, hn1, fun l hl => hl1 l (hl d List.mem_cons_self), fun h => absurd h (by simp)⟩
      constructor
      · intro h; exact absurd h (by simp)
      · intro h; exact absurd (hu1.2 (h d List.mem_cons_self)) (by simp)
    | true =>
      dsimp only
      obtain ⟨ig2, ok2, e2, hu2, hn2, hl2, hv2⟩ := ih ig1 (fun dp hdp => hr dp (List.mem_cons_of_mem _ hdp))
      refine ⟨ig2, ok2, e2, ?_, by rw [hn2, hn1], fun l hl => ?_, fun hok pre post dp l e hl hpost => ?_⟩
      · rw [hu2]
        unfold Usable
        rw [hn1]
        constructor
        · intro h dp hdp
          rcases List.mem_cons.1 hdp with rfl | hdp
          · exact hu1.1 rfl
          · exact h dp hdp
        · intro h dp hdp; exact h dp (List.mem_cons_of_mem _ hdp)
      · rw [hl2 l (fun dp hdp => by rw [hn1]; exact hl dp (List.mem_cons_of_mem _ hdp)), hl1 l (hl d List.mem_cons_self)]
      · cases pre with
        | nil =>
          obtain ⟨rfl, rfl⟩ := List.cons.inj e
          rw [hl2 l (fun x hx => by rw [hn1]; exact hpost x hx)]
          exact hv1 rfl l hl
        | cons q pre =>
          obtain ⟨-, e'⟩ := List.cons.inj e
          refine hv2 hok pre post dp l e' (by rw [hn1]; exact hl) (fun x hx => by rw [hn1]; exact hpost x hx)

/-- For all dependencies: the extraction is refused exactly if a field used by the integrand is not registered in the simulator of the
dependency.  Otherwise the vector of each name holds the values of the last dependency stored in this vector, and the other vectors of the
integrand are left as they are. -/
theorem C88_extract (w : World α) (s : Nat) (model : List Patch) (pindx : Nat) (ig : Integrand α)
    (hr : ∀ dp ∈ (w.sims s).depFields, Ready w model pindx dp) :
    ∃ ig' ok, extractDeps w model pindx (w.sims s).depFields ig = some (ig', ok) ∧
      (ok = true ↔ ∀ dp ∈ (w.sims s).depFields, ig.named dp.name ≠ none → getField w dp.sim dp.name ≠ none) ∧
      (∀ l, (∀ dp ∈ (w.sims s).depFields, ig.named dp.name ≠ some l) → ig'.loc l = ig.loc l) ∧
      (ok = true → ∀ (pre post : List Dependency) (dp : Dependency) (l : Nat), (w.sims s).depFields = pre ++ dp :: post →
        ig.named dp.name = some l → (∀ e ∈ post, ig.named e.name ≠ some l) → LocalValues w model pindx dp (ig'.loc l)) := by
  obtain ⟨ig', ok, e, hu, _, hl, hv⟩ := extractDeps_spec w model pindx (w.sims s).depFields ig hr
  exact ⟨ig', ok, e, hu, hl, hv⟩

end IFEM.Dep
