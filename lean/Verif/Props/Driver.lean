import Verif.Lemmas.DriverRestart
import Mathlib.Tactic.Ring
/-!
# C75: the time stepping driver, its result output and restarts
-/
namespace IFEM.Props
open Drv
variable {τ σ δ : Type}

/-- `n` or nothing: the interval of the result file, none with spectral discretization. -/
abbrev expInt (spectral : Bool) (n : Int) : Option Int := if spectral then none else some n

theorem steps_alike {sim : Sim τ σ δ} {R : τ × σ → τ × σ → Prop} (hR : Alike sim R) (c : Int) :
    ∀ (xs : List (τ × σ)) (x z : τ × σ), Steps sim (x :: xs) → R x z → Ends sim (xs.getLastD x) c →
      ∃ zs, Steps sim (z :: zs) ∧ List.Forall₂ R (x :: xs) (z :: zs) ∧ Ends sim (zs.getLastD z) c ∧ zs.length = xs.length := by
  intro xs
  induction xs with
  | nil =>
    intro x z _ h he
    refine ⟨[], ?_, List.Forall₂.cons h List.Forall₂.nil, hR.ends x z c h he, rfl⟩
    intro i a b ha hb
    simp at hb
  | cons x' xs ih =>
    intro x z hs h he
    obtain ⟨z', h1, h2⟩ := hR.next x z x' h (hs 0 _ _ rfl rfl)
    obtain ⟨zs, h3, h4, h5, h6⟩ := ih x' z' (steps_tail hs) h2 (by rw [List.getLastD_cons] at he; exact he)
    refine ⟨z' :: zs, ?_, List.Forall₂.cons h h4, by rw [List.getLastD_cons]; exact h5, by simp [h6]⟩
    intro i a b ha hb
    cases i with
    | zero => simp only [List.getElem?_cons_zero, Option.some.injEq, List.getElem?_cons_succ, Nat.zero_add] at ha hb; subst ha; subst hb; exact h1
    | succ i => exact h3 i a b (by simpa using ha) (by simpa using hb)

theorem restartFile_alike {sim : Sim τ σ δ} {R : τ × σ → τ × σ → Prop} (hR : Alike sim R) (nd : Option Int) (stride : Int) {xs zs : List (τ × σ)}
    (h : List.Forall₂ R xs zs) : restartFile sim nd stride zs = restartFile sim nd stride xs := by
  induction h with
  | nil => rfl
  | @cons x z xs zs h _ ih =>
    have e1 : ∀ x (xs : List (τ × σ)), restartFile sim nd stride (x :: xs) = restartFile sim nd stride [x] ++ restartFile sim nd stride xs :=
      fun x xs => restartFile_append sim nd stride [x] xs
    rw [e1 x, e1 z, ih]
    congr 1
    unfold restartFile
    split
    · rfl
    · simp only [List.filter_cons, List.filter_nil, hR.step x z h]
      split
      · simp only [List.flatMap_cons, List.flatMap_nil, hR.step x z h, hR.ser x z h]
      · rfl

theorem results_alike {sim : Sim τ σ δ} {R : τ × σ → τ × σ → Prop} (hR : Alike sim R) (nd : Option Int) {xs zs : List (τ × σ)}
    (h : List.Forall₂ R xs zs) : List.Forall₂ (fun p q => q.1 = p.1 ∧ R p.2 q.2) (resultsO sim nd xs) (resultsO sim nd zs) := by
  cases nd with
  | none => exact List.Forall₂.nil
  | some n =>
    unfold resultsO results
    dsimp only
    induction h with
    | nil => exact List.Forall₂.nil
    | @cons x z xs zs h _ ih =>
      simp only [List.filter_cons, hR.step x z h]
      split
      · exact List.Forall₂.cons ⟨by show sim.step z.1 / n = sim.step x.1 / n; rw [hR.step x z h], h⟩ ih
      · exact ih

theorem saveable_alike {sim : Sim τ σ δ} {R : τ × σ → τ × σ → Prop} (hR : Alike sim R) {x z : τ × σ} (h : R x z) (hx : Savable sim x) : Savable sim z :=
  ⟨(hR.save x z h).trans hx.save, by rw [hR.ser x z h]; exact hx.ser⟩

/-- **C75**, complete run: a multi-step simulation, all of whose steps can be saved and serialized, ends with the code of its last step after
having saved every step, written a level of the result file for every `nd`-th step, numbered from zero, and a
level of the (initially empty) restart file for every `stride`-th step. -/
theorem C75_complete (sim : Sim τ σ δ) (sd spectral : Bool) (nd stride code : Int) (hn : 1 ≤ nd) (hsd : sd = false ∨ code = 0)
    (x0 : τ × σ) (ys : List (τ × σ)) (hc : Complete sim (x0 :: ys) code) (n : Nat) (hf : ys.length < n) :
    ∃ st', solveProblem sim sd n (handleDataOutput spectral nd stride 0 0 x0.1 x0.2 true []) = some (code, st') ∧
      st'.disk.saved = x0 :: ys ∧
      st'.disk.exported = (if spectral then [] else results sim nd (x0 :: ys)) ∧
      st'.disk.rst = restartFile sim (expInt spectral nd) stride (x0 :: ys) := by
  obtain ⟨k, rfl⟩ : ∃ k, n = ys.length + 1 + k := ⟨n - (ys.length + 1), by omega⟩
  obtain ⟨z, hz, hend⟩ := hc.last
  have hnum : ∀ (i : Nat) x, (x0 :: ys)[i]? = some x → sim.step x.1 = 0 + i := fun i x h => by rw [hc.number i x h]; omega
  obtain ⟨st', h1, h2⟩ := run_spec sim sd (expInt spectral nd) stride code 0 (by
      intro n h
      unfold expInt at h
      cases spectral
      · simp only [Bool.false_eq_true, if_false, Option.mem_def, Option.some.injEq] at h
        subst h
        exact ⟨hn, Int.dvd_zero _⟩
      · simp at h) hsd k ys (handleDataOutput spectral nd stride 0 0 x0.1 x0.2 true []) (by omega) (fun _ => Int.dvd_zero _) hc.steps hnum
    (hc.multi x0 (by simp)) (hc.model x0 (by simp)) hc.savable (by
      unfold handleDataOutput expInt
      cases spectral <;> simp) (by
      unfold handleDataOutput
      simp) rfl (by
      have : ys.getLastD x0 = z := by
        cases ys with
        | nil => simpa using hz
        | cons y ys => rw [List.getLast?_cons_cons] at hz; rw [List.getLastD_eq_getLast?, hz]; rfl
      rw [show ((handleDataOutput spectral nd stride 0 0 x0.1 x0.2 true [] : St τ σ δ).tp, (handleDataOutput spectral nd stride 0 0 x0.1 x0.2 true [] : St τ σ δ).s) = x0 from rfl, this]
      exact hend)
  refine ⟨st', h1, ?_, ?_, ?_⟩
  · rw [h2]; rfl
  · rw [h2]
    cases spectral <;> rfl
  · rw [h2]
    exact put_again _ (restartFile_nodup sim _ stride (x0 :: ys) hc.savable (pairwise_steps hnum)) 0 0 (Nat.le_refl _)

theorem results_index (sim : Sim τ σ δ) (nd : Int) (hn : 1 ≤ nd) : ∀ (xs : List (τ × σ)) (t : Int), 0 ≤ t → (∀ (i : Nat) x, xs[i]? = some x → sim.step x.1 = t + i) →
    ∀ k : Nat, (results sim nd xs)[k]? = (xs[(((t + nd - 1) / nd + k) * nd - t).toNat]?).map fun x => ((t + nd - 1) / nd + k, x.1, x.2) := by
  intro xs
  induction xs with
  | nil => intro t _ _ k; simp [results]
  | cons x xs ih =>
    intro t h0 h k
    have hx : sim.step x.1 = t := by simpa using h 0 x rfl
    have h' : ∀ (i : Nat) y, xs[i]? = some y → sim.step y.1 = (t+1) + i := by
      intro i y hy
      have := h (i+1) y (by simpa using hy)
      rw [this]; push_cast; omega
    have ih' := ih (t+1) (by omega) h'
    have hnn : nd ≠ 0 := by omega
    unfold results at ih' ⊢
    rw [List.filter_cons]
    by_cases hd : nd ∣ t
    · rw [if_pos (by rw [hx]; simpa using hd)]
      obtain ⟨q, rfl⟩ := hd
      have e1 : (nd * q + nd - 1) / nd = q := by
        rw [show nd * q + nd - 1 = (nd - 1) + nd * q by omega, Int.add_mul_ediv_left _ _ hnn, Int.ediv_eq_zero_of_lt (by omega) (by omega)]; omega
      have e2 : (nd * q + 1 + nd - 1) / nd = q + 1 := by
        rw [show nd * q + 1 + nd - 1 = 0 + nd * (q+1) by rw [Int.mul_add]; omega, Int.add_mul_ediv_left _ _ hnn]; simp
      rw [e1]
      cases k with
      | zero =>
        have : ((q + ((0:Nat):Int)) * nd - nd * q).toNat = 0 := by
          rw [show (q + ((0:Nat):Int)) = q by simp, Int.mul_comm q nd]; simp
        rw [this]
        simp only [List.map_cons, List.getElem?_cons_zero, Option.map_some, hx, Int.mul_ediv_cancel_left _ hnn]
        simp
      | succ k =>
        rw [List.map_cons, List.getElem?_cons_succ, ih' k, e2]
        have e3 : ((q + ((k+1:Nat):Int)) * nd - nd * q).toNat = ((q + 1 + (k:Int)) * nd - (nd * q + 1)).toNat + 1 := by
          have a1 : (q + ((k+1:Nat):Int)) * nd = nd * q + k * nd + nd := by push_cast; ring
          have a2 : (q + 1 + (k:Int)) * nd = nd * q + k * nd + nd := by ring
          have a3 : 0 ≤ (k:Int) * nd := Int.mul_nonneg (by omega) (by omega)
          rw [a1, a2]; omega
        rw [e3, List.getElem?_cons_succ]
        congr 1
        funext y
        push_cast
        rw [show q + ((k:Int) + 1) = q + 1 + k by omega]
    · rw [if_neg (by rw [hx]; simpa using hd), ih' k]
      have e1 := Int.mul_ediv_add_emod t nd
      have e2 := Int.emod_nonneg t hnn
      have e3 := Int.emod_lt_of_pos t (show 0 < nd by omega)
      have e4 : t % nd ≠ 0 := fun h => hd (Int.dvd_of_emod_eq_zero h)
      have e5 : (t + nd - 1) / nd = t / nd + 1 := by
        rw [show t + nd - 1 = (t % nd - 1) + nd * (t/nd + 1) by rw [Int.mul_add]; omega, Int.add_mul_ediv_left _ _ hnn, Int.ediv_eq_zero_of_lt (by omega) (by omega)]; omega
      have e6 : (t + 1 + nd - 1) / nd = t / nd + 1 := by
        rw [show t + 1 + nd - 1 = (t % nd) + nd * (t/nd + 1) by rw [Int.mul_add]; omega, Int.add_mul_ediv_left _ _ hnn, Int.ediv_eq_zero_of_lt (by omega) (by omega)]; omega
      rw [e5, e6]
      have e7 : ((t/nd + 1 + (k:Int)) * nd - t).toNat = ((t/nd + 1 + (k:Int)) * nd - (t + 1)).toNat + 1 := by
        have a1 : (t/nd + 1 + (k:Int)) * nd = nd * (t/nd) + nd + k * nd := by ring
        have a3 : 0 ≤ (k:Int) * nd := Int.mul_nonneg (by omega) (by omega)
        rw [a1]; omega
      rw [e7, List.getElem?_cons_succ]

/-- **C75**, levels of the result file: level `k` holds the state after step `k * nd`, and there are as many as such steps. -/
theorem C75_level (sim : Sim τ σ δ) (nd : Nat) (code : Int) (hn : 1 ≤ nd) (xs : List (τ × σ)) (hc : Complete sim xs code) (k : Nat) :
    (results sim nd xs)[k]? = (xs[k * nd]?).map fun x => ((k : Int), x.1, x.2) := by
  have := results_index sim nd (by omega) xs 0 (by omega) (fun i x h => by rw [hc.number i x h]; omega) k
  rw [this]
  have e : (0 + (nd:Int) - 1) / nd = 0 := Int.ediv_eq_zero_of_lt (by omega) (by omega)
  rw [e]
  have e2 : ((0 + (k:Int)) * nd - 0).toNat = k * nd := by
    rw [show (0 + (k:Int)) * nd - 0 = ((k * nd : Nat) : Int) by push_cast; ring]; rfl
  rw [e2]
  simp

theorem filter_ne_level {xs : RFile δ} {l : Int} (h : ∀ p ∈ xs, p.1 ≠ l) : xs.filter (fun p => p.1 == l) = [] := by
  rw [List.filter_eq_nil_iff]
  intro p hp
  simpa using h p hp

theorem filter_eq_level {xs : RFile δ} {l : Int} (h : ∀ p ∈ xs, p.1 = l) : xs.filter (fun p => p.1 == l) = xs := by
  rw [List.filter_eq_self]
  intro p hp
  simpa using h p hp

/-- The restart file of a run, around the level of step `t0`. -/
theorem file_split (sim : Sim τ σ δ) (nd : Option Int) (stride : Nat) (hst : 1 ≤ stride) (xs : List (τ × σ)) (hnum : ∀ (i : Nat) x, xs[i]? = some x → sim.step x.1 = i)
    (l : Nat) (x : τ × σ) (hx : xs[(l+1)*stride]? = some x) :
    restartFile sim nd stride xs = restartFile sim nd stride (xs.take ((l+1)*stride)) ++
      (levelOf l (nd.map fun n => (((l+1)*stride : Nat) : Int) / n) ((sim.ser x.1 x.2).getD []) ++ restartFile sim nd stride (xs.drop ((l+1)*stride+1))) ∧
    restartFile sim nd stride (xs.drop ((l+1)*stride)) =
      levelOf l (nd.map fun n => (((l+1)*stride : Nat) : Int) / n) ((sim.ser x.1 x.2).getD []) ++ restartFile sim nd stride (xs.drop ((l+1)*stride+1)) ∧
    (∀ p ∈ restartFile sim nd stride (xs.take ((l+1)*stride)), p.1 < l) ∧
    (∀ p ∈ restartFile sim nd stride (xs.drop ((l+1)*stride+1)), (l : Int) < p.1) := by
  have hlt : (l+1)*stride < xs.length := by
    rcases List.getElem?_eq_some_iff.1 hx with ⟨h, _⟩; exact h
  have hs := hnum _ x hx
  have hsplit : xs.drop ((l+1)*stride) = [x] ++ xs.drop ((l+1)*stride+1) := by
    rw [List.singleton_append, List.drop_eq_getElem_cons hlt]
    rw [List.getElem?_eq_getElem hlt] at hx
    rw [Option.some.inj hx]
  have hone : restartFile sim nd stride [x] = levelOf l (nd.map fun n => (((l+1)*stride : Nat) : Int) / n) ((sim.ser x.1 x.2).getD []) := by
    have hpos : 0 < (l+1)*stride := Nat.mul_pos (by omega) (by omega)
    unfold restartFile
    rw [if_neg (by omega), List.filter_cons, if_pos]
    · simp only [List.filter_nil, List.flatMap_cons, List.flatMap_nil, List.append_nil, hs]
      congr 1
      rw [show (((l+1)*stride : Nat) : Int) = (l+1) * (stride : Int) by push_cast; ring, Int.mul_ediv_cancel _ (by omega)]
      omega
    · rw [hs]
      simp only [decide_eq_true_eq]
      refine ⟨⟨(l+1 : Nat), by push_cast; ring⟩, by omega⟩
  have h2 : restartFile sim nd stride (xs.drop ((l+1)*stride)) =
      levelOf l (nd.map fun n => (((l+1)*stride : Nat) : Int) / n) ((sim.ser x.1 x.2).getD []) ++ restartFile sim nd stride (xs.drop ((l+1)*stride+1)) := by
    rw [hsplit, restartFile_append, hone]
  refine ⟨?_, h2, ?_, ?_⟩
  · conv_lhs => rw [← List.take_append_drop ((l+1)*stride) xs]
    rw [restartFile_append, h2]
  · intro p hp
    obtain ⟨y, hy, _, hd, he⟩ := mem_restartFile hp
    obtain ⟨i, hi, hiy⟩ := List.mem_iff_getElem.1 hy
    have hi' : i < (l+1)*stride ∧ i < xs.length := by simpa using hi
    have hy' : xs[i]? = some y := by
      rw [List.getElem?_eq_getElem hi'.2, ← hiy, List.getElem_take]
    have hsy := hnum i y hy'
    rw [he]
    have : sim.step y.1 / stride < (l:Int) + 1 := by
      rw [hsy]
      refine Int.ediv_lt_of_lt_mul (by omega) ?_
      have : ((i : Nat) : Int) < (((l+1)*stride : Nat) : Int) := by exact_mod_cast hi'.1
      push_cast at this
      exact this
    omega
  · intro p hp
    obtain ⟨y, hy, _, hd, he⟩ := mem_restartFile hp
    obtain ⟨i, hi, hiy⟩ := List.mem_iff_getElem.1 hy
    have hi' : (l+1)*stride + 1 + i < xs.length := by simp only [List.length_drop] at hi; omega
    have hy' : xs[(l+1)*stride + 1 + i]? = some y := by
      rw [List.getElem?_eq_getElem hi', ← hiy, List.getElem_drop]
    have hsy := hnum _ y hy'
    rw [he]
    obtain ⟨q, hq⟩ := hd
    rw [hq, Int.mul_ediv_cancel_left _ (by omega)]
    rw [hq] at hsy
    have h3 : (stride : Int) * (l + 1) < stride * q := by
      rw [hsy]; push_cast
      have : (stride : Int) * (l+1) = (l+1) * stride := Int.mul_comm _ _
      omega
    have := Int.lt_of_mul_lt_mul_left h3 (by omega)
    omega

theorem simData_levelOf (l : Int) (e : Option Int) (d : List (String × δ)) : simData ((levelOf l e d).map Prod.snd) = d := by
  have h : ∀ d : List (String × δ), simData (d.map fun p => (p.1, Val.data p.2)) = d := by
    intro d
    unfold simData
    induction d with
    | nil => rfl
    | cons p d ih => rw [List.map_cons, List.filterMap_cons]; dsimp only; rw [ih]
  have h' := h d
  unfold levelOf
  cases e with
  | none =>
    simp only [Option.map_none, Option.toList_none, List.append_nil, List.singleton_append, List.map_cons, List.map_map, Function.comp_def]
    exact h'
  | some a =>
    simp only [Option.map_some, Option.toList_some, List.cons_append, List.nil_append, List.map_cons, List.map_map, Function.comp_def]
    exact h'

theorem timeLevel_levelOf (l : Int) (e : Option Int) (d : List (String × δ)) : timeLevel ((levelOf l e d).map Prod.snd) = e := by
  unfold levelOf timeLevel
  cases e with
  | none =>
    simp only [Option.map_none, Option.toList_none, List.append_nil, List.singleton_append, List.map_cons, List.map_map, Function.comp_def, List.findSome?_cons]
    rw [List.findSome?_eq_none_iff]
    intro p hp
    obtain ⟨q, _, rfl⟩ := List.mem_map.1 hp
    rfl
  | some a =>
    simp only [Option.map_some, Option.toList_some, List.cons_append, List.nil_append, List.map_cons, List.findSome?_cons]
    rfl

/-- Reading level `l` from a file cut off after that level. -/
theorem read_level (A B C : RFile δ) (l : Nat) (hA : ∀ p ∈ A, p.1 < (l:Int)) (hB : ∀ p ∈ B, p.1 = l) (hB0 : B ≠ []) (hC : ∀ p ∈ C, (l : Int) < p.1)
    (j : Nat) (hj : (A ++ B).length ≤ j) : readData ((A ++ (B ++ C)).take j) l = some ((l : Int), B.map Prod.snd) := by
  have e : (A ++ (B ++ C)).take j = A ++ (B ++ C.take (j - (A ++ B).length)) := by
    rw [← List.append_assoc, List.take_append, List.take_of_length_le hj, List.append_assoc]
  have hl : readLevel (A ++ (B ++ C.take (j - (A ++ B).length))) l = l := if_neg (by omega)
  rw [e]
  unfold readData
  rw [hl, if_pos]
  · rw [List.filter_append, List.filter_append, filter_ne_level (fun p hp => by have := hA p hp; omega), filter_eq_level hB,
      filter_ne_level (fun p hp => by have := hC p (List.mem_of_mem_take hp); omega)]
    simp
  · rw [List.any_eq_true]
    obtain ⟨b, hb⟩ := List.exists_mem_of_ne_nil B hB0
    exact ⟨b, by simp [hb], by simp [hB b hb]⟩

/-- **C75**, restart: a complete run is interrupted at any time after level `l` of the restart file was written (the restart file `G` holds the first
`j` items of that of the complete run), and restarted from this level by a new process, with the same intervals, the one for restarts a multiple of
the one for results. If serialized states are restored up to states which cannot be told apart, the restarted run ends with the same code, having
saved the remaining steps, completed the restart file, and written the remaining levels of the result file with the same numbers. -/
theorem C75_restart (sim : Sim τ σ δ) (sd spectral : Bool) (nd stride : Nat) (code : Int) (hn : 1 ≤ nd) (hdv : spectral = false → nd ∣ stride) (hst : 1 ≤ stride)
    (hsd : sd = false ∨ code = 0) (xs : List (τ × σ)) (hc : Complete sim xs code) (R : τ × σ → τ × σ → Prop) (hR : Alike sim R) (tp : τ) (s : σ)
    (hrest : ∀ x ∈ xs, ∀ d, sim.ser x.1 x.2 = some d → ∃ z : τ × σ, sim.deser d tp s = (z.1, z.2, true) ∧ R x z)
    (l j : Nat) (hl : (l+1)*stride < xs.length) (F : RFile δ) (hF : F = restartFile sim (expInt spectral nd) stride xs)
    (hj : (F.filter fun p => decide (p.1 ≤ (l : Int))).length ≤ j) (n : Nat) (hf : xs.length ≤ n) :
    ∃ tp' s' e st', restart sim (F.take j) (l+1) tp s = ((l : Int), tp', s', e, (l : Int)) ∧
      solveProblem sim sd n (handleDataOutput spectral nd stride e l tp' s' true (F.take j)) = some (code, st') ∧
      List.Forall₂ R (xs.drop ((l+1)*stride)) st'.disk.saved ∧
      st'.disk.rst = F ∧
      (spectral = false → List.Forall₂ (fun p q => q.1 = p.1 ∧ R p.2 q.2) (results sim nd (xs.drop ((l+1)*stride))) st'.disk.exported) := by
  obtain ⟨x, hx⟩ : ∃ x, xs[(l+1)*stride]? = some x := ⟨_, List.getElem?_eq_getElem hl⟩
  have hxm : x ∈ xs := List.mem_of_getElem? hx
  obtain ⟨f1, f2, f3, f4⟩ := file_split sim (expInt spectral nd) stride hst xs hc.number l x hx
  have hpos : 0 < (l+1)*stride := Nat.mul_pos (by omega) (by omega)
  have hstp := hc.number _ x hx
  obtain ⟨d, hd, _⟩ := (hc.savable x hxm).ser
  obtain ⟨z, hz1, hz2⟩ := hrest x hxm d hd
  rw [hd, Option.getD_some] at f1 f2
  have hlen : (restartFile sim (expInt spectral nd) stride (xs.take ((l+1)*stride)) ++
      levelOf (l:Int) ((expInt spectral nd).map fun n => (((l+1)*stride : Nat) : Int) / n) d).length ≤ j := by
    refine le_trans ?_ hj
    rw [hF, f1, ← List.append_assoc, List.filter_append, List.filter_eq_self.2, List.length_append (bs := List.filter _ _)]
    · omega
    · intro p hp
      rw [List.mem_append] at hp
      simp only [decide_eq_true_eq]
      rcases hp with hp | hp
      · exact le_of_lt (f3 p hp)
      · exact le_of_eq (mem_levelOf hp)
  have hread := read_level _ _ _ l f3 (fun p hp => mem_levelOf hp) (show levelOf (l:Int) ((expInt spectral nd).map fun n => (((l+1)*stride : Nat) : Int) / n) d ≠ [] by
    unfold levelOf; simp) f4 j hlen
  rw [← f1, ← hF] at hread
  have hrst : restart sim (F.take j) (l+1) tp s = ((l:Int), z.1, z.2, ((expInt spectral nd).map fun n => (((l+1)*stride : Nat) : Int) / n).getD (l:Int), (l:Int)) := by
    unfold restart
    rw [show (l:Int) + 1 - 1 = l by omega, hread]
    dsimp only
    rw [simData_levelOf, timeLevel_levelOf, hz1]
    rfl
  have hdrop : xs.drop ((l+1)*stride) = x :: xs.drop ((l+1)*stride+1) := by
    rw [List.drop_eq_getElem_cons hl]
    rw [List.getElem?_eq_getElem hl] at hx
    rw [Option.some.inj hx]
  have hsteps : Steps sim (x :: xs.drop ((l+1)*stride+1)) := by
    rw [← hdrop]
    intro i a b ha hb
    rw [List.getElem?_drop] at ha hb
    exact hc.steps _ a b ha hb
  obtain ⟨w, hw, hend⟩ := hc.last
  obtain ⟨zs, z1, z2, z3, z4⟩ := steps_alike hR code _ x z hsteps hz2 (by
    have : (xs.drop ((l+1)*stride)).getLast? = some w := by
      rw [List.getLast?_drop, if_neg (by omega), hw]
    rw [hdrop, List.getLast?_cons] at this
    rw [List.getLastD_eq_getLast?, Option.some.inj this]
    exact hend)
  have hfa : List.Forall₂ R (xs.drop ((l+1)*stride)) (z :: zs) := by rw [hdrop]; exact z2
  obtain ⟨k, hk⟩ : ∃ k, n = zs.length + 1 + k := ⟨n - (zs.length + 1), by rw [z4, List.length_drop]; omega⟩
  have hmem : ∀ (i : Nat) y, (z :: zs)[i]? = some y → ∃ x', xs[(l+1)*stride + i]? = some x' ∧ R x' y := by
    intro i y hy
    obtain ⟨hi, hiy⟩ := List.getElem?_eq_some_iff.1 hy
    have hi2 : i < (xs.drop ((l+1)*stride)).length := by rw [hfa.length_eq]; exact hi
    refine ⟨(xs.drop ((l+1)*stride))[i], ?_, ?_⟩
    · rw [← List.getElem?_drop, List.getElem?_eq_getElem hi2]
    · have := hfa.get hi2 hi
      simp only [List.get_eq_getElem] at this
      rw [hiy] at this
      exact this
  obtain ⟨st', r1, r2⟩ := run_spec sim sd (expInt spectral nd) stride code (((l+1)*stride : Nat) : Int) (by
      intro n h
      unfold expInt at h
      cases hsp : spectral
      · simp only [hsp, Bool.false_eq_true, if_false, Option.mem_def, Option.some.injEq] at h
        subst h
        exact ⟨by omega, by exact_mod_cast Dvd.dvd.mul_left (hdv hsp) _⟩
      · simp [hsp] at h) hsd k zs (handleDataOutput spectral nd stride (((expInt spectral nd).map fun n => (((l+1)*stride : Nat) : Int) / n).getD (l:Int)) l z.1 z.2 true (F.take j))
    (by omega) (fun _ => by exact_mod_cast Dvd.intro_left _ rfl) z1 (by
      intro i y hy
      obtain ⟨x', h1, h2⟩ := hmem i y hy
      rw [hR.step x' y h2, hc.number _ x' h1]
      push_cast; omega) ((hR.multi x z hz2).trans (hc.multi x hxm)) ((hR.model x z hz2).trans (hc.model x hxm)) (by
      intro y hy
      obtain ⟨i, hi⟩ := List.mem_iff_getElem?.1 hy
      obtain ⟨x', h1, h2⟩ := hmem i y hi
      exact saveable_alike hR h2 (hc.savable x' (List.mem_of_getElem? h1))) (by
      unfold handleDataOutput expInt
      cases spectral <;> simp) (by
      unfold handleDataOutput
      dsimp only
      split
      · rfl
      · rw [if_neg (by omega)]
        rw [show (((l+1)*stride : Nat) : Int) = (l+1) * (stride : Int) by push_cast; ring, Int.mul_ediv_cancel _ (by omega)]
        congr 2
        omega) rfl z3
  rw [← hk] at r1
  refine ⟨_, _, _, st', hrst, r1, ?_, ?_, ?_⟩
  · rw [r2]; exact hfa
  · rw [r2]
    show (restartFile sim (expInt spectral nd) stride (z :: zs)).foldl put1 (F.take j) = F
    have hdropF : F.drop (restartFile sim (expInt spectral nd) stride (xs.take ((l+1)*stride))).length = restartFile sim (expInt spectral nd) stride (z :: zs) := by
      rw [restartFile_alike hR _ _ hfa, f2, hF, f1, List.drop_left]
    rw [← hdropF]
    refine put_again F ?_ _ j ?_
    · rw [hF]
      exact restartFile_nodup sim _ _ xs hc.savable (pairwise_steps (t := 0) (fun i x h => by rw [hc.number i x h]; omega))
    · rw [List.length_append] at hlen
      omega
  · intro hsp
    rw [r2]
    have := results_alike hR (some (nd : Int)) hfa
    rw [hsp]
    exact this

end IFEM.Props
