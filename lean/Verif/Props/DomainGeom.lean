import Verif.Model.DomainGeom
import Verif.Spec.DomainGeom
import Verif.Lemmas.LagrangeBasis
import Mathlib.Tactic.Ring
import Mathlib.Tactic.Positivity
import Mathlib.Data.List.Nodup
import Mathlib.Data.List.Range

/-!
# C67: structured domain decomposition
-/
namespace IFEM.DomGeom
open IFEM.DomGeom.Spec

/-- The elements of part number `a` in one direction. -/
def part (nel g ov a : Nat) : List Nat :=
  List.range' (first nel g ov a) ((if a+1 < g then min (first nel g ov a + width nel g) nel else nel) - first nel g ov a)

theorem mem_part {nel g ov a x : Nat} : x ∈ part nel g ov a ↔ InPart nel g ov a x := by
  unfold part InPart
  rw [List.mem_range'_1]
  split <;> omega

theorem runLoop_eq (sub ofs nel : Nat) (hn : nel < W) (ho : ofs ≤ nel) : runLoop sub ofs nel = List.range' ofs (min sub (nel-ofs)) := by
  unfold runLoop
  induction sub generalizing ofs with
  | zero => simp
  | succ n ih =>
    rw [List.range_succ_eq_map, List.map_cons, List.map_map]
    by_cases h : ofs < nel
    · have e : ((fun i => (ofs + i) % W) ∘ Nat.succ) = fun i => (ofs+1+i) % W := by
        funext i
        show (ofs + (i+1)) % W = _
        congr 1
        omega
      rw [e, List.takeWhile_cons_of_pos (by simp only [Nat.add_zero, Nat.mod_eq_of_lt (show ofs < W by omega)]; simpa using h), ih (ofs+1) (by omega)]
      have e2 : min (n+1) (nel-ofs) = min n (nel-(ofs+1)) + 1 := by omega
      rw [e2, List.range'_succ]
      simp only [Nat.add_zero, Nat.mod_eq_of_lt (show ofs < W by omega)]
    · rw [List.takeWhile_cons_of_neg (by simp only [Nat.add_zero, Nat.mod_eq_of_lt (show ofs < W by omega)]; simpa using h)]
      rw [show min (n+1) (nel-ofs) = 0 by omega]
      simp

theorem sub64_eq {a b : Nat} (h : b ≤ a) (ha : a < W) : sub64 a b = a - b := by
  unfold sub64
  rw [Nat.mod_eq_of_lt (show b < W by omega), show a + (W-b) = (a-b) + W by omega, Nat.add_mod_right, Nat.mod_eq_of_lt (by omega)]

/-- One step in any direction, while the hypotheses hold. -/
theorem dir_step {nel g ov a : Nat} (hf : Fits nel g ov) (hn : nel + 1 < W) (ha : a < g) :
    runLoop (if a = g-1 then sub64 nel (first nel g ov a) else width nel g) (first nel g ov a) nel = part nel g ov a ∧
    (if a = g-1 then sub64 nel (first nel g ov a) else width nel g) ≤ nel + 1 ∧
    (a+1 < g → (first nel g ov a + sub64 (if a = g-1 then sub64 nel (first nel g ov a) else width nel g) ov) % W = first nel g ov (a+1)) := by
  obtain ⟨h1, h2, h3⟩ := hf
  have hw : width nel g ≤ nel + 1 := by unfold width; have := Nat.div_le_self nel g; omega
  have hmono : ∀ b, b ≤ g-1 → first nel g ov b ≤ nel := fun b hb => le_trans (Nat.mul_le_mul_right _ hb) h3
  have hfa := hmono a (by omega)
  refine ⟨?_, ?_, ?_⟩
  · rw [runLoop_eq _ _ _ (by omega) hfa]
    unfold part
    by_cases hl : a = g-1
    · rw [if_pos hl, if_neg (by omega), sub64_eq hfa (by omega), Nat.min_self]
    · rw [if_neg hl, if_pos (by omega)]
      congr 1
      omega
  · split
    · rw [sub64_eq hfa (by omega)]; omega
    · exact hw
  · intro hl
    rw [if_neg (by omega), sub64_eq h2 (by omega)]
    have e : first nel g ov a + (width nel g - ov) = first nel g ov (a+1) := by unfold first; rw [Nat.succ_mul]
    have := hmono (a+1) (by omega)
    rw [e, Nat.mod_eq_of_lt (by omega)]

theorem take_range_succ {n a : Nat} (h : a < n) : (List.range n).take (a+1) = (List.range n).take a ++ [a] := by
  rw [List.take_succ_eq_append_getElem (by simpa using h)]
  simp

/-- The loop over the parts in the first direction. -/
theorem loop1_eq {nel1 g1 ov rsv : Nat} (js : List Nat) (doms : List (List Nat)) (hf : Fits nel1 g1 ov) (hn : nel1 + 1 < W) (hr : (nel1+1)*rsv ≤ maxSize) :
    ∃ sub ofs, loop1 nel1 g1 ov rsv js doms =
      some ⟨sub, ofs, doms ++ (List.range g1).map fun a => js.flatMap fun j => (part nel1 g1 ov a).map fun i => j*nel1+i⟩ := by
  have hM : maxSize < W := by decide
  have step : ∀ a, a < g1 → ∀ ds, ∃ sub ofs, step1 nel1 g1 ov rsv js ⟨width nel1 g1, first nel1 g1 ov a, ds⟩ a =
      some ⟨sub, ofs, ds ++ [js.flatMap fun j => (part nel1 g1 ov a).map fun i => j*nel1+i]⟩ ∧ (a+1 < g1 → sub = width nel1 g1 ∧ ofs = first nel1 g1 ov (a+1)) := by
    intro a ha ds
    obtain ⟨h1, h2, h3⟩ := dir_step hf hn ha
    refine ⟨(if a = g1-1 then sub64 nel1 (first nel1 g1 ov a) else width nel1 g1), (first nel1 g1 ov a + sub64 (if a = g1-1 then sub64 nel1 (first nel1 g1 ov a) else width nel1 g1) ov) % W, ?_, ?_⟩
    · unfold step1
      have : (if a = g1-1 then sub64 nel1 (first nel1 g1 ov a) else width nel1 g1) * rsv ≤ (nel1+1)*rsv := Nat.mul_le_mul_right _ h2
      dsimp only
      rw [Nat.mod_eq_of_lt (by omega), if_neg (by omega), h1]
    · intro hl
      exact ⟨by rw [if_neg (by omega)], h3 hl⟩
  have key : ∀ b, b ≤ g1 → ∃ sub ofs, ((List.range g1).take b).foldlM (fun (s : Dir) (gu : Nat) => step1 nel1 g1 ov rsv js s gu) ⟨nel1/g1+1, 0, doms⟩ =
      some ⟨sub, ofs, doms ++ ((List.range g1).take b).map fun a => js.flatMap fun j => (part nel1 g1 ov a).map fun i => j*nel1+i⟩ ∧
      (b < g1 → sub = width nel1 g1 ∧ ofs = first nel1 g1 ov b) := by
    intro b
    induction b with
    | zero =>
      intro _
      exact ⟨nel1/g1+1, 0, by simp, fun _ => ⟨rfl, by simp [first]⟩⟩
    | succ b ih =>
      intro hb
      obtain ⟨sub, ofs, e1, e2⟩ := ih (by omega)
      obtain ⟨rfl, rfl⟩ := e2 (by omega)
      rw [take_range_succ hb, List.foldlM_append, e1]
      obtain ⟨sub, ofs, e3, e4⟩ := step b hb (doms ++ ((List.range g1).take b).map (fun a => js.flatMap fun j => (part nel1 g1 ov a).map fun i => j*nel1+i))
      refine ⟨sub, ofs, ?_, e4⟩
      simp only [List.foldlM_cons, List.foldlM_nil, Option.bind_eq_bind, Option.bind_some]
      rw [e3]
      simp
  obtain ⟨sub, ofs, e, _⟩ := key g1 (le_refl _)
  rw [List.take_of_length_le (by simp)] at e
  exact ⟨sub, ofs, e⟩

/-- The loop over the parts in the second direction. -/
theorem loop2_eq {nel1 nel2 g1 g2 ov rsv : Nat} (ks : List Nat) (doms : List (List Nat)) (hf1 : Fits nel1 g1 ov) (hf2 : Fits nel2 g2 ov) (hn1 : nel1 + 1 < W) (hn2 : nel2 + 1 < W)
    (hr : (nel1+1)*((nel2+1)*rsv) ≤ maxSize) :
    ∃ sub ofs, loop2 nel1 nel2 g1 g2 ov rsv ks doms =
      some ⟨sub, ofs, doms ++ (List.range g2).flatMap fun b => (List.range g1).map fun a => (ks.flatMap fun k => (part nel2 g2 ov b).map fun j => k*nel2+j).flatMap fun j =>
        (part nel1 g1 ov a).map fun i => j*nel1+i⟩ := by
  have step : ∀ b, b < g2 → ∀ ds, ∃ sub ofs, step2 nel1 nel2 g1 g2 ov rsv ks ⟨width nel2 g2, first nel2 g2 ov b, ds⟩ b =
      some ⟨sub, ofs, ds ++ (List.range g1).map fun a => (ks.flatMap fun k => (part nel2 g2 ov b).map fun j => k*nel2+j).flatMap fun j =>
        (part nel1 g1 ov a).map fun i => j*nel1+i⟩ ∧ (b+1 < g2 → sub = width nel2 g2 ∧ ofs = first nel2 g2 ov (b+1)) := by
    intro b hb ds
    obtain ⟨h1, h2, h3⟩ := dir_step hf2 hn2 hb
    refine ⟨(if b = g2-1 then sub64 nel2 (first nel2 g2 ov b) else width nel2 g2), (first nel2 g2 ov b + sub64 (if b = g2-1 then sub64 nel2 (first nel2 g2 ov b) else width nel2 g2) ov) % W, ?_, ?_⟩
    · unfold step2
      dsimp only
      rw [h1]
      have : (nel1+1)*((if b = g2-1 then sub64 nel2 (first nel2 g2 ov b) else width nel2 g2) * rsv) ≤ (nel1+1)*((nel2+1)*rsv) :=
        Nat.mul_le_mul_left _ (Nat.mul_le_mul_right _ h2)
      obtain ⟨s, o, e⟩ := loop1_eq (rsv := (if b = g2-1 then sub64 nel2 (first nel2 g2 ov b) else width nel2 g2) * rsv) (ks.flatMap fun k => (part nel2 g2 ov b).map fun j => k*nel2+j) ds hf1 hn1 (by omega)
      rw [e]
      rfl
    · intro hl
      exact ⟨by rw [if_neg (by omega)], h3 hl⟩
  have key : ∀ c, c ≤ g2 → ∃ sub ofs, ((List.range g2).take c).foldlM (fun (s : Dir) (gv : Nat) => step2 nel1 nel2 g1 g2 ov rsv ks s gv) ⟨nel2/g2+1, 0, doms⟩ =
      some ⟨sub, ofs, doms ++ ((List.range g2).take c).flatMap fun b => (List.range g1).map fun a => (ks.flatMap fun k => (part nel2 g2 ov b).map fun j => k*nel2+j).flatMap fun j =>
        (part nel1 g1 ov a).map fun i => j*nel1+i⟩ ∧ (c < g2 → sub = width nel2 g2 ∧ ofs = first nel2 g2 ov c) := by
    intro c
    induction c with
    | zero =>
      intro _
      exact ⟨nel2/g2+1, 0, by simp, fun _ => ⟨rfl, by simp [first]⟩⟩
    | succ b ih =>
      intro hb
      obtain ⟨sub, ofs, e1, e2⟩ := ih (by omega)
      obtain ⟨rfl, rfl⟩ := e2 (by omega)
      rw [take_range_succ hb, List.foldlM_append, e1]
      obtain ⟨sub, ofs, e3, e4⟩ := step b hb (doms ++ ((List.range g2).take b).flatMap (fun b => (List.range g1).map fun a => (ks.flatMap fun k => (part nel2 g2 ov b).map fun j => k*nel2+j).flatMap fun j => (part nel1 g1 ov a).map fun i => j*nel1+i))
      refine ⟨sub, ofs, ?_, e4⟩
      simp only [List.foldlM_cons, List.foldlM_nil, Option.bind_eq_bind, Option.bind_some]
      rw [e3]
      simp
  obtain ⟨sub, ofs, e, _⟩ := key g2 (le_refl _)
  rw [List.take_of_length_le (by simp)] at e
  exact ⟨sub, ofs, e⟩

/-- The loop over the parts in the third direction. -/
theorem loop3_eq {nel1 nel2 nel3 g1 g2 g3 ov : Nat} (hf1 : Fits nel1 g1 ov) (hf2 : Fits nel2 g2 ov) (hf3 : Fits nel3 g3 ov) (hn1 : nel1 + 1 < W) (hn2 : nel2 + 1 < W) (hn3 : nel3 + 1 < W)
    (hr : (nel1+1)*((nel2+1)*(nel3+1)) ≤ maxSize) :
    ∃ sub ofs, ((List.range g3).foldlM (fun (s : Dir) (gw : Nat) => step3 nel1 nel2 nel3 g1 g2 g3 ov s gw) ⟨nel3/g3+1, 0, []⟩) =
      some ⟨sub, ofs, (List.range g3).flatMap fun c => (List.range g2).flatMap fun b => (List.range g1).map fun a =>
        ((part nel3 g3 ov c).flatMap fun k => (part nel2 g2 ov b).map fun j => k*nel2+j).flatMap fun j => (part nel1 g1 ov a).map fun i => j*nel1+i⟩ := by
  have step : ∀ c, c < g3 → ∀ ds, ∃ sub ofs, step3 nel1 nel2 nel3 g1 g2 g3 ov ⟨width nel3 g3, first nel3 g3 ov c, ds⟩ c =
      some ⟨sub, ofs, ds ++ (List.range g2).flatMap fun b => (List.range g1).map fun a =>
        ((part nel3 g3 ov c).flatMap fun k => (part nel2 g2 ov b).map fun j => k*nel2+j).flatMap fun j => (part nel1 g1 ov a).map fun i => j*nel1+i⟩ ∧
        (c+1 < g3 → sub = width nel3 g3 ∧ ofs = first nel3 g3 ov (c+1)) := by
    intro b hb ds
    obtain ⟨h1, h2, h3⟩ := dir_step hf3 hn3 hb
    refine ⟨(if b = g3-1 then sub64 nel3 (first nel3 g3 ov b) else width nel3 g3), (first nel3 g3 ov b + sub64 (if b = g3-1 then sub64 nel3 (first nel3 g3 ov b) else width nel3 g3) ov) % W, ?_, ?_⟩
    · unfold step3
      dsimp only
      rw [h1]
      have : (nel1+1)*((nel2+1)*(if b = g3-1 then sub64 nel3 (first nel3 g3 ov b) else width nel3 g3)) ≤ (nel1+1)*((nel2+1)*(nel3+1)) :=
        Nat.mul_le_mul_left _ (Nat.mul_le_mul_left _ h2)
      obtain ⟨s, o, e⟩ := loop2_eq (rsv := (if b = g3-1 then sub64 nel3 (first nel3 g3 ov b) else width nel3 g3)) (part nel3 g3 ov b) ds hf1 hf2 hn1 hn2 (by omega)
      rw [e]
      rfl
    · intro hl
      exact ⟨by rw [if_neg (by omega)], h3 hl⟩
  have key : ∀ d, d ≤ g3 → ∃ sub ofs, ((List.range g3).take d).foldlM (fun (s : Dir) (gw : Nat) => step3 nel1 nel2 nel3 g1 g2 g3 ov s gw) ⟨nel3/g3+1, 0, []⟩ =
      some ⟨sub, ofs, ((List.range g3).take d).flatMap fun c => (List.range g2).flatMap fun b => (List.range g1).map fun a =>
        ((part nel3 g3 ov c).flatMap fun k => (part nel2 g2 ov b).map fun j => k*nel2+j).flatMap fun j => (part nel1 g1 ov a).map fun i => j*nel1+i⟩ ∧
      (d < g3 → sub = width nel3 g3 ∧ ofs = first nel3 g3 ov d) := by
    intro c
    induction c with
    | zero =>
      intro _
      exact ⟨nel3/g3+1, 0, by simp, fun _ => ⟨rfl, by simp [first]⟩⟩
    | succ b ih =>
      intro hb
      obtain ⟨sub, ofs, e1, e2⟩ := ih (by omega)
      obtain ⟨rfl, rfl⟩ := e2 (by omega)
      rw [take_range_succ hb, List.foldlM_append, e1]
      obtain ⟨sub, ofs, e3, e4⟩ := step b hb (((List.range g3).take b).flatMap (fun c => (List.range g2).flatMap fun b => (List.range g1).map fun a => ((part nel3 g3 ov c).flatMap fun k => (part nel2 g2 ov b).map fun j => k*nel2+j).flatMap fun j => (part nel1 g1 ov a).map fun i => j*nel1+i))
      refine ⟨sub, ofs, ?_, e4⟩
      simp only [List.foldlM_cons, List.foldlM_nil, Option.bind_eq_bind, Option.bind_some]
      rw [e3]
      simp
  obtain ⟨sub, ofs, e, _⟩ := key g3 (le_refl _)
  rw [List.take_of_length_le (by simp)] at e
  exact ⟨sub, ofs, e⟩

theorem part_nodup (nel g ov a : Nat) : (part nel g ov a).Nodup := List.nodup_range'

theorem part_lt {nel g ov a x : Nat} (h : x ∈ part nel g ov a) : x < nel := (mem_part.1 h).2.1

theorem elm_inj {n i j i' j' : Nat} (hi : i < n) (hi' : i' < n) (h : j*n+i = j'*n+i') : j = j' ∧ i = i' := by
  have h1 : (j*n+i) / n = j := by rw [Nat.mul_comm, Nat.mul_add_div (by omega), Nat.div_eq_of_lt hi, Nat.add_zero]
  have h2 : (j'*n+i') / n = j' := by rw [Nat.mul_comm, Nat.mul_add_div (by omega), Nat.div_eq_of_lt hi', Nat.add_zero]
  have h3 : j = j' := by rw [← h1, ← h2, h]
  subst h3
  exact ⟨rfl, by omega⟩

/-- A list of numbers combined from two lists has no repetitions. -/
theorem comb_nodup {n : Nat} {js is : List Nat} (hj : js.Nodup) (hi : is.Nodup) (hl : ∀ i ∈ is, i < n) : (js.flatMap fun j => is.map fun i => j*n+i).Nodup := by
  rw [List.nodup_flatMap]
  refine ⟨fun j _ => (List.nodup_map_iff_inj_on hi).2 fun a _ b _ h => by omega, ?_⟩
  refine hj.imp fun {a b} hab => ?_
  rw [Function.onFun, List.disjoint_left]
  intro x h1 h2
  obtain ⟨i, h3, rfl⟩ := List.mem_map.1 h1
  obtain ⟨i', h4, h5⟩ := List.mem_map.1 h2
  exact hab (elm_inj (hl _ h4) (hl _ h3) h5).1.symm

theorem grid3_get {α : Type} (g1 g2 g3 : Nat) (f : Nat → Nat → Nat → α) (a b c : Nat) (ha : a < g1) (hb : b < g2) (hc : c < g3) :
    ((List.range g3).flatMap fun c => (List.range g2).flatMap fun b => (List.range g1).map fun a => f a b c)[(c*g2+b)*g1+a]? = some (f a b c) := by
  have e : (c*g2+b)*g1+a = c*(g2*g1) + (b*g1+a) := by ring
  have hlt : b*g1+a < g2*g1 := by calc b*g1+a < b*g1+g1 := by omega
    _ = (b+1)*g1 := by ring
    _ ≤ g2*g1 := Nat.mul_le_mul_right _ hb
  rw [e, IFEM.Lag.flatMap_range_get _ (g2*g1) _ (fun k _ => IFEM.Lag.flatMap_range_length _ g1 _ (fun j _ => by simp)) c _ hc hlt,
    IFEM.Lag.flatMap_range_get _ g1 _ (fun j _ => by simp) b a hb ha]
  simp [ha]

theorem part_all {nel ov : Nat} : part nel 1 ov 0 = List.range nel := by
  unfold part first
  simp [List.range_eq_range']

theorem range_comb (n m : Nat) : ((List.range m).flatMap fun j => (List.range n).map fun i => j*n+i) = List.range (m*n) := by
  induction m with
  | zero => simp
  | succ m ih =>
    rw [List.range_succ, List.flatMap_append, ih, Nat.succ_mul, List.range_add]
    simp

/-- The sizes are such that no number exceeds the limits of the machine. -/
def Small (nel1 nel2 nel3 : Nat) : Prop := (nel1+1)*((nel2+1)*(nel3+1)) ≤ maxSize

theorem small_lt {nel1 nel2 nel3 : Nat} (h : Small nel1 nel2 nel3) : nel1 + 1 < W ∧ nel2 + 1 < W ∧ nel3 + 1 < W := by
  have hM : maxSize < W := by decide
  have h1 : nel1+1 ≤ (nel1+1)*((nel2+1)*(nel3+1)) := Nat.le_mul_of_pos_right _ (by positivity)
  have h2 : nel2+1 ≤ (nel1+1)*((nel2+1)*(nel3+1)) := le_trans (Nat.le_mul_of_pos_right _ (by positivity)) (Nat.le_mul_of_pos_left _ (by positivity))
  have h3 : nel3+1 ≤ (nel1+1)*((nel2+1)*(nel3+1)) := le_trans (Nat.le_mul_of_pos_left _ (by positivity)) (Nat.le_mul_of_pos_left _ (by positivity))
  unfold Small at h
  omega

/-- The list of subdomains, in the order of their numbers. -/
def allDoms (nel1 nel2 nel3 g1 g2 g3 ov : Nat) : List (List Nat) :=
  (List.range g3).flatMap fun c => (List.range g2).flatMap fun b => (List.range g1).map fun a =>
    ((part nel3 g3 ov c).flatMap fun k => (part nel2 g2 ov b).map fun j => k*nel2+j).flatMap fun j => (part nel1 g1 ov a).map fun i => j*nel1+i

theorem mul_one_iff {a b : Nat} : a*b = 1 ↔ a = 1 ∧ b = 1 :=
  ⟨fun h => ⟨Nat.dvd_one.1 ⟨b, h.symm⟩, Nat.dvd_one.1 ⟨a, by rw [Nat.mul_comm, h]⟩⟩, fun ⟨h1, h2⟩ => by rw [h1, h2]⟩

theorem calc3_eq {nel1 nel2 nel3 g1 g2 g3 ov : Nat} (hf1 : Fits nel1 g1 ov) (hf2 : Fits nel2 g2 ov) (hf3 : Fits nel3 g3 ov) (hs : Small nel1 nel2 nel3) :
    calcSubdomains3D nel1 nel2 nel3 g1 g2 g3 ov = some (allDoms nel1 nel2 nel3 g1 g2 g3 ov) := by
  obtain ⟨h1, h2, h3⟩ := small_lt hs
  unfold calcSubdomains3D
  split
  · rename_i h
    obtain ⟨h12, rfl⟩ := mul_one_iff.1 h
    obtain ⟨rfl, rfl⟩ := mul_one_iff.1 h12
    unfold allDoms
    simp only [List.range_one, List.flatMap_cons, List.flatMap_nil, List.map_cons, List.map_nil, List.append_nil, part_all, range_comb]
    rw [show nel1*nel2*nel3 = nel3*nel2*nel1 by ring]
  · obtain ⟨s, o, e⟩ := loop3_eq hf1 hf2 hf3 h1 h2 h3 hs
    rw [e]
    rfl

theorem calc2_eq {nel1 nel2 g1 g2 ov : Nat} (hf1 : Fits nel1 g1 ov) (hf2 : Fits nel2 g2 ov) (hs : Small nel1 nel2 0) :
    calcSubdomains2D nel1 nel2 g1 g2 ov = some (allDoms nel1 nel2 1 g1 g2 1 ov) := by
  obtain ⟨h1, h2, h3⟩ := small_lt hs
  unfold calcSubdomains2D
  have e1 : part 1 1 ov 0 = [0] := part_all
  split
  · rename_i h
    obtain ⟨rfl, rfl⟩ := mul_one_iff.1 h
    unfold allDoms
    simp only [List.range_one, List.flatMap_cons, List.flatMap_nil, List.map_cons, List.map_nil, List.append_nil, part_all, Nat.zero_mul, Nat.zero_add, List.map_id', range_comb]
    rw [show nel1*nel2 = nel2*nel1 by ring]
  · obtain ⟨s, o, e⟩ := loop2_eq (rsv := 1) [0] [] hf1 hf2 h1 h2 hs
    rw [e]
    unfold allDoms
    simp [e1]

theorem calc1_eq {nel1 g1 ov : Nat} (hf1 : Fits nel1 g1 ov) (hs : Small nel1 0 0) :
    calcSubdomains1D nel1 g1 ov = some (allDoms nel1 1 1 g1 1 1 ov) := by
  obtain ⟨h1, h2, h3⟩ := small_lt hs
  unfold calcSubdomains1D
  have e1 : part 1 1 ov 0 = [0] := part_all
  split
  · rename_i h
    subst h
    unfold allDoms
    simp [part_all]
  · obtain ⟨s, o, e⟩ := loop1_eq (rsv := 1) [0] [] hf1 h1 hs
    rw [e]
    unfold allDoms
    simp [e1]

/-- What the list of subdomains must be: `g1*g2*g3` subdomains; number `(c*g2+b)*g1+a` has each element at most once, and exactly the elements whose position is in part `a`, `b`, `c`
in each of the directions. -/
def Correct (nel1 nel2 nel3 g1 g2 g3 ov : Nat) (doms : List (List Nat)) : Prop :=
  doms.length = g1*g2*g3 ∧ ∀ a < g1, ∀ b < g2, ∀ c < g3, ∃ d, doms[(c*g2+b)*g1+a]? = some d ∧ d.Nodup ∧
    ∀ e, e ∈ d ↔ ∃ i j k, InPart nel1 g1 ov a i ∧ InPart nel2 g2 ov b j ∧ InPart nel3 g3 ov c k ∧ e = elm nel1 nel2 i j k

theorem allDoms_correct (nel1 nel2 nel3 g1 g2 g3 ov : Nat) : Correct nel1 nel2 nel3 g1 g2 g3 ov (allDoms nel1 nel2 nel3 g1 g2 g3 ov) := by
  refine ⟨?_, fun a ha b hb c hc => ⟨_, grid3_get g1 g2 g3 (fun a b c => ((part nel3 g3 ov c).flatMap fun k => (part nel2 g2 ov b).map fun j => k*nel2+j).flatMap fun j =>
    (part nel1 g1 ov a).map fun i => j*nel1+i) a b c ha hb hc, ?_, ?_⟩⟩
  · unfold allDoms
    rw [IFEM.Lag.flatMap_range_length _ (g2*g1) _ (fun k _ => IFEM.Lag.flatMap_range_length _ g1 _ (fun j _ => by simp))]
    ring
  · refine comb_nodup (comb_nodup (part_nodup _ _ _ _) (part_nodup _ _ _ _) fun i hi => part_lt hi) (part_nodup _ _ _ _) fun i hi => part_lt hi
  · intro e
    simp only [List.mem_flatMap, List.mem_map, mem_part, elm]
    constructor
    · rintro ⟨x, ⟨k, hk, j, hj, rfl⟩, i, hi, rfl⟩
      exact ⟨i, j, k, hi, hj, hk, rfl⟩
    · rintro ⟨i, j, k, hi, hj, hk, rfl⟩
      exact ⟨_, ⟨k, hk, j, hj, rfl⟩, i, hi, rfl⟩

/-- **C67** (subdomains). A patch is divided into `g1*g2*g3` subdomains; each of them consists of a part of the elements in each direction, all parts but the last one have the same
width, and each part starts `ov` elements before the end of the previous one. -/
theorem C67_subdomains {nel1 nel2 nel3 g1 g2 g3 ov : Nat} (hs : Small nel1 nel2 nel3) (hf1 : Fits nel1 g1 ov) :
    (0 < nel3 → Fits nel2 g2 ov → Fits nel3 g3 ov → ∃ doms, calcSubdomains nel1 nel2 nel3 g1 g2 g3 ov = some doms ∧ Correct nel1 nel2 nel3 g1 g2 g3 ov doms) ∧
    (nel3 = 0 → 0 < nel2 → Fits nel2 g2 ov → ∃ doms, calcSubdomains nel1 nel2 nel3 g1 g2 g3 ov = some doms ∧ Correct nel1 nel2 1 g1 g2 1 ov doms) ∧
    (nel3 = 0 → nel2 = 0 → ∃ doms, calcSubdomains nel1 nel2 nel3 g1 g2 g3 ov = some doms ∧ Correct nel1 1 1 g1 1 1 ov doms) := by
  refine ⟨fun h hf2 hf3 => ⟨_, ?_, allDoms_correct ..⟩, fun h h2 hf2 => ⟨_, ?_, allDoms_correct ..⟩, fun h h2 => ⟨_, ?_, allDoms_correct ..⟩⟩
  · unfold calcSubdomains
    rw [if_pos h, calc3_eq hf1 hf2 hf3 hs]
  · subst h
    unfold calcSubdomains
    rw [if_neg (by omega), if_pos h2, calc2_eq hf1 hf2 hs]
  · subst h h2
    unfold calcSubdomains
    rw [if_neg (by omega), if_neg (by omega), calc1_eq hf1 hs]

theorem part_cover {nel g ov x : Nat} (hf : Fits nel g ov) (hx : x < nel) : ∃ a < g, InPart nel g ov a x := by
  obtain ⟨h1, h2, h3⟩ := hf
  have key : ∀ n, n < g → first nel g ov n ≤ x ∨ ∃ a < g, InPart nel g ov a x := by
    intro n
    induction n with
    | zero => intro _; left; simp [first]
    | succ n ih =>
      intro hn
      rcases ih (by omega) with h | h
      · by_cases hc : first nel g ov (n+1) ≤ x
        · exact .inl hc
        · right
          refine ⟨n, by omega, h, hx, fun _ => ?_⟩
          have : first nel g ov (n+1) = first nel g ov n + (width nel g - ov) := by unfold first; rw [Nat.succ_mul]
          omega
      · exact .inr h
  rcases key (g-1) (by omega) with h | h
  · exact ⟨g-1, by omega, h, hx, fun hc => absurd hc (by omega)⟩
  · exact h

theorem part_unique {nel g x a b : Nat} (ha : a < g) (hb : b < g) (h1 : InPart nel g 0 a x) (h2 : InPart nel g 0 b x) : a = b := by
  have key : ∀ a b, b < g → InPart nel g 0 a x → InPart nel g 0 b x → ¬ a < b := by
    intro a b hb h1 h2 hab
    have h3 := h1.2.2 (by omega)
    have h4 : first nel g 0 (a+1) ≤ first nel g 0 b := by unfold first; exact Nat.mul_le_mul_right _ hab
    have h5 : first nel g 0 (a+1) = first nel g 0 a + width nel g := by unfold first; rw [Nat.succ_mul]; omega
    have := h2.1
    omega
  have k1 := key a b hb h1 h2
  have k2 := key b a ha h2 h1
  omega

/-- **C67** (subdomains, covering). Every element of the patch is in some subdomain, all elements of the subdomains are elements of the patch, and without overlap every element is in
exactly one of them. -/
theorem C67_subdomains_cover {nel1 nel2 nel3 g1 g2 g3 ov : Nat} {doms : List (List Nat)} (h : Correct nel1 nel2 nel3 g1 g2 g3 ov doms)
    (hf1 : Fits nel1 g1 ov) (hf2 : Fits nel2 g2 ov) (hf3 : Fits nel3 g3 ov) :
    (∀ e, (∃ d ∈ doms, e ∈ d) ↔ e < nel1*nel2*nel3) ∧
    (ov = 0 → ∀ n m : Nat, ∀ d d', doms[n]? = some d → doms[m]? = some d' → ∀ e ∈ d, e ∈ d' → n = m) := by
  obtain ⟨hl, hd⟩ := h
  have split : ∀ n : Nat, n < g1*g2*g3 → ∃ a b c, a < g1 ∧ b < g2 ∧ c < g3 ∧ n = (c*g2+b)*g1+a := by
    intro n hn
    have g1p := hf1.1
    have g2p := hf2.1
    refine ⟨n % g1, n / g1 % g2, n / g1 / g2, Nat.mod_lt _ g1p, Nat.mod_lt _ g2p, ?_, ?_⟩
    · rw [Nat.div_div_eq_div_mul]
      exact Nat.div_lt_of_lt_mul hn
    · rw [Nat.div_add_mod' (n/g1) g2, Nat.div_add_mod']
  refine ⟨fun e => ⟨?_, ?_⟩, ?_⟩
  · rintro ⟨d, hdm, hed⟩
    obtain ⟨n, hn⟩ := List.mem_iff_getElem?.1 hdm
    obtain ⟨hn1, _⟩ := List.getElem?_eq_some_iff.1 hn
    obtain ⟨a, b, c, ha, hb, hc, rfl⟩ := split n (by omega)
    obtain ⟨d', e1, e2, e3⟩ := hd a ha b hb c hc
    rw [hn] at e1
    obtain rfl := Option.some.inj e1
    obtain ⟨i, j, k, hi, hj, hk, rfl⟩ := (e3 e).1 hed
    unfold elm
    have h1 := hi.2.1
    have h2 := hj.2.1
    have h3 := hk.2.1
    calc (k*nel2+j)*nel1+i < (k*nel2+j)*nel1 + nel1 := by omega
      _ = (k*nel2+j+1)*nel1 := by ring
      _ ≤ ((k+1)*nel2)*nel1 := Nat.mul_le_mul_right _ (by rw [Nat.succ_mul]; omega)
      _ ≤ (nel3*nel2)*nel1 := Nat.mul_le_mul_right _ (Nat.mul_le_mul_right _ h3)
      _ = nel1*nel2*nel3 := by ring
  · intro he
    have p1 : 0 < nel1 := by rcases Nat.eq_zero_or_pos nel1 with h | h; (· subst h; simp at he); exact h
    have p2 : 0 < nel2 := by rcases Nat.eq_zero_or_pos nel2 with h | h; (· subst h; simp at he); exact h
    obtain ⟨a, ha, ha2⟩ := part_cover hf1 (Nat.mod_lt e p1)
    obtain ⟨b, hb, hb2⟩ := part_cover hf2 (Nat.mod_lt (e/nel1) p2)
    have h3 : e / nel1 / nel2 < nel3 := by rw [Nat.div_div_eq_div_mul]; exact Nat.div_lt_of_lt_mul he
    obtain ⟨c, hc, hc2⟩ := part_cover hf3 h3
    obtain ⟨d, e1, e2, e3⟩ := hd a ha b hb c hc
    refine ⟨d, List.mem_of_getElem? e1, (e3 e).2 ⟨_, _, _, ha2, hb2, hc2, ?_⟩⟩
    unfold elm
    rw [Nat.div_add_mod' (e/nel1) nel2, Nat.div_add_mod']
  · rintro rfl n m d d' hn hm e he he'
    obtain ⟨hn1, _⟩ := List.getElem?_eq_some_iff.1 hn
    obtain ⟨hm1, _⟩ := List.getElem?_eq_some_iff.1 hm
    obtain ⟨a, b, c, ha, hb, hc, rfl⟩ := split n (by omega)
    obtain ⟨a', b', c', ha', hb', hc', rfl⟩ := split m (by omega)
    obtain ⟨d1, e1, e2, e3⟩ := hd a ha b hb c hc
    obtain ⟨d2, f1, f2, f3⟩ := hd a' ha' b' hb' c' hc'
    rw [hn] at e1
    rw [hm] at f1
    obtain rfl := Option.some.inj e1
    obtain rfl := Option.some.inj f1
    obtain ⟨i, j, k, hi, hj, hk, rfl⟩ := (e3 e).1 he
    obtain ⟨i', j', k', hi', hj', hk', h⟩ := (f3 _).1 he'
    obtain ⟨h1, rfl⟩ := elm_inj hi.2.1 hi'.2.1 h
    obtain ⟨rfl, rfl⟩ := elm_inj hj.2.1 hj'.2.1 h1
    rw [part_unique ha ha' hi hi', part_unique hb hb' hj hj', part_unique hc hc' hk hk']

/-- **C67** (subdomains, overlap). In each direction two neighbouring parts have exactly the first `ov` elements of the second one in common (as far as there are so many). -/
theorem C67_subdomains_overlap {nel g ov a x : Nat} (hf : Fits nel g ov) (ha : a+1 < g) :
    (InPart nel g ov a x ∧ InPart nel g ov (a+1) x) ↔ first nel g ov (a+1) ≤ x ∧ x < first nel g ov (a+1) + ov ∧ x < nel := by
  have e : first nel g ov (a+1) = first nel g ov a + (width nel g - ov) := by unfold first; rw [Nat.succ_mul]
  have h2 := hf.2.1
  unfold InPart
  constructor
  · rintro ⟨⟨h3, h4, h5⟩, h6, h7, h8⟩
    have := h5 ha
    omega
  · intro h
    refine ⟨⟨by omega, by omega, fun _ => by omega⟩, by omega, by omega, fun _ => by omega⟩

/-- **C67** (subdomains). An overlap of at least one element and at most the width of a part is always possible; without overlap it depends on the sizes. -/
theorem C67_subdomains_fits {nel g ov : Nat} (hg : 0 < g) : (1 ≤ ov → ov ≤ nel/g+1 → Fits nel g ov) ∧ (Fits nel g 0 ↔ (g-1)*(nel/g+1) ≤ nel) := by
  unfold Fits width
  refine ⟨fun h1 h2 => ⟨hg, h2, ?_⟩, ⟨fun h => h.2.2, fun h => ⟨hg, Nat.zero_le _, h⟩⟩⟩
  calc (g-1)*(nel/g+1-ov) ≤ g*(nel/g) := Nat.mul_le_mul (by omega) (by omega)
    _ ≤ nel := Nat.mul_div_le nel g

/-- **C67** (counterexample). Without overlap, the offset of the last part may exceed the number of elements: 5 elements in 4 parts make the program throw an exception.  Also 3 in 3. -/
theorem C67_subdomains_counterexample : calcSubdomains 5 0 0 4 0 0 0 = none ∧ calcSubdomains 3 0 0 3 0 0 0 = none ∧
    calcSubdomains 6 0 0 3 0 0 0 = some [[0,1,2],[3,4,5],[]] := by
  refine ⟨?_, ?_, ?_⟩ <;> decide +kernel

/-- **C67** (counterexample). If the overlap exceeds the width of the parts, elements are missing. -/
theorem C67_overlap_counterexample : calcSubdomains 4 0 0 2 0 0 4 = some [[0,1,2],[]] := by decide +kernel

example : Small 10 8 6 ∧ Fits 10 3 1 ∧ Fits 8 2 1 ∧ Fits 6 2 1 ∧ Fits 10 2 0 := by
  unfold Small Fits width maxSize
  decide

end IFEM.DomGeom
