import Verif.Spec.EigenMode
import Mathlib.Data.Rat.Defs
import Mathlib.Algebra.Order.Ring.Rat
import Mathlib.Algebra.Order.Field.Rat
/-!
# C92: Input of a combination of eigenmodes
-/
namespace IFEM.EigMode
open IFEM.Spec

variable {K : Type} [Field K] [LinearOrder K]

theorem grow_length (n : Nat) (v : List K) : (grow n v).length = max n v.length := by
  unfold grow
  split
  · rw [List.length_append, List.length_replicate]; omega
  · omega

theorem grow_getD (n : Nat) (v : List K) (p : Nat) : (grow n v).getD p 0 = v.getD p 0 := by
  unfold grow
  split
  · rw [List.getD_eq_getElem?_getD, List.getD_eq_getElem?_getD, List.getElem?_append]
    by_cases h : p < v.length
    · rw [if_pos h]
    · rw [if_neg h, List.getElem?_eq_none (l := v) (by omega), List.getElem?_replicate]
      split <;> rfl
  · rfl

theorem set_getD (v : List K) (p q : Nat) (x : K) (hp : p < v.length) : (v.set p x).getD q 0 = if q = p then x else v.getD q 0 := by
  rw [List.getD_eq_getElem?_getD, List.getD_eq_getElem?_getD, List.getElem?_set]
  by_cases h : p = q
  · subst h; rw [if_pos rfl, if_pos hp, if_pos rfl]; rfl
  · rw [if_neg h, if_neg (Ne.symm h)]

theorem le_maxFold (list : List Int) (a : Nat) : a ≤ list.foldl (fun a i => max a i.toNat) a ∧
    ∀ i ∈ list, i.toNat ≤ list.foldl (fun a i => max a i.toNat) a := by
  induction list generalizing a with
  | nil => simp
  | cons x xs ih =>
    rw [List.foldl_cons]
    obtain ⟨h1, h2⟩ := ih (max a x.toNat)
    refine ⟨by omega, ?_⟩
    intro i hi
    rcases List.mem_cons.1 hi with rfl | hi
    · omega
    · exact h2 i hi

theorem maxFold_mem (list : List Int) (a : Nat) : list.foldl (fun a i => max a i.toNat) a = a ∨
    ∃ i ∈ list, i.toNat = list.foldl (fun a i => max a i.toNat) a := by
  induction list generalizing a with
  | nil => exact Or.inl rfl
  | cons x xs ih =>
    rw [List.foldl_cons]
    rcases ih (max a x.toNat) with h | ⟨i, hi, h⟩
    · rcases le_total a x.toNat with c | c
      · right; exact ⟨x, List.mem_cons_self, by rw [h]; omega⟩
      · left; rw [h]; omega
    · right; exact ⟨i, List.mem_cons_of_mem _ hi, h⟩

theorem setMany_getD (list : List Int) (v : List K) (x : K) (h1 : ∀ i ∈ list, 1 ≤ i) (h2 : ∀ i ∈ list, i.toNat ≤ v.length) (k : Nat) (hk : 1 ≤ k) :
    (list.foldl (fun v i => v.set (i.toNat - 1) x) v).getD (k-1) 0 = if (k : Int) ∈ list then x else v.getD (k-1) 0 := by
  induction list generalizing v with
  | nil => simp
  | cons i is ih =>
    have hi := h1 i List.mem_cons_self
    have hl := h2 i List.mem_cons_self
    rw [List.foldl_cons, ih _ (fun j hj => h1 j (List.mem_cons_of_mem _ hj))
      (fun j hj => by rw [List.length_set]; exact h2 j (List.mem_cons_of_mem _ hj)), set_getD _ _ _ _ (by omega)]
    by_cases c : (k : Int) ∈ is
    · rw [if_pos c, if_pos (List.mem_cons_of_mem _ c)]
    · rw [if_neg c]
      by_cases d : (k : Int) = i
      · rw [if_pos (by omega), if_pos (by rw [d]; exact List.mem_cons_self)]
      · rw [if_neg (by omega), if_neg (by rw [List.mem_cons]; tauto)]

theorem setSame_getD (list : List Int) (hl : list ≠ []) (v : List K) (q : Nat) (x : K) (hq : q < v.length) (p : Nat) :
    (list.foldl (fun v _ => v.set q x) v).getD p 0 = if p = q then x else v.getD p 0 := by
  induction list generalizing v with
  | nil => exact absurd rfl hl
  | cons i is ih =>
    rw [List.foldl_cons]
    by_cases c : is = []
    · subst c; exact set_getD _ _ _ _ hq
    · rw [ih c _ (by rw [List.length_set]; exact hq), set_getD _ _ _ _ hq]
      split <;> rfl

/-- The children that are handled without accesses outside of the vectors: a list of modes is not empty and has positive numbers only. -/
def GoodChild : Child K → Prop
  | .modes list _ _ => list ≠ [] ∧ ∀ i ∈ list, 1 ≤ i
  | _ => True

theorem setsAmplitude_mode (k : Nat) (value freq : K) (number : Option Nat) :
    setsAmplitude k (.mode value number freq) = if number = some k ∧ k > 0 then some value else none := rfl

theorem setsAmplitude_modes (k : Nat) (list : List Int) (scale freq : K) :
    setsAmplitude k (.modes list scale freq) = if (k : Int) ∈ list then some scale else none := rfl

theorem setsFrequency_mode (eps : K) (k : Nat) (value freq : K) (number : Option Nat) :
    setsFrequency eps k (.mode value number freq) = if number = some k ∧ k > 0 ∧ freq > eps then some freq else none := rfl

theorem setsFrequency_modes (eps : K) (k : Nat) (list : List Int) (scale freq : K) :
    setsFrequency eps k (.modes list scale freq) = if (k : Int) ∈ list ∧ freq > eps then some freq else none := rfl

theorem parseChild_mode (twoPi eps : K) (s : Input K) (value freq : K) (imode : Nat) :
    parseChild twoPi eps s (.mode value (some imode) freq) = if imode > 0 then
        some { amp := (grow imode s.amp).set (imode-1) value
               omega := if freq > eps then (grow imode s.omega).set (imode-1) (twoPi*freq) else s.omega }
      else some s := rfl

theorem parseChild_modes (twoPi eps : K) (s : Input K) (list : List Int) (scale freq : K) :
    parseChild twoPi eps s (.modes list scale freq) = if list = [] ∨ ∃ i ∈ list, i < 1 then none
      else some { amp := list.foldl (fun v i => v.set (i.toNat - 1) scale) (grow (list.foldl (fun a i => max a i.toNat) 0) s.amp)
                  omega := if freq > eps then list.foldl (fun v _ => v.set (list.foldl (fun a i => max a i.toNat) 0 - 1) (twoPi*freq))
                    (grow (list.foldl (fun a i => max a i.toNat) 0) s.omega) else s.omega } := rfl

theorem child_amp (twoPi eps : K) (s : Input K) (c : Child K) (hc : GoodChild c) :
    ∃ s', parseChild twoPi eps s c = some s' ∧ ∀ k, 1 ≤ k → s'.amp.getD (k-1) 0 = (setsAmplitude k c).getD (s.amp.getD (k-1) 0) := by
  cases c with
  | other => exact ⟨s, rfl, fun k _ => rfl⟩
  | mode value number freq =>
    cases number with
    | none => exact ⟨s, rfl, fun k _ => by simp [setsAmplitude]⟩
    | some imode =>
      by_cases hi : imode > 0
      · refine ⟨_, if_pos hi, ?_⟩
        intro k hk
        dsimp only
        rw [set_getD _ _ _ _ (by rw [grow_length]; omega), grow_getD]
        rw [setsAmplitude_mode]
        by_cases e : imode = k
        · subst e; simp [hi]
        · rw [if_neg (by omega), if_neg (by simp [e])]; rfl
      · refine ⟨s, if_neg hi, ?_⟩
        intro k hk
        rw [setsAmplitude_mode]
        rw [if_neg]
        · rfl
        · rintro ⟨e, -⟩
          have := Option.some.inj e
          omega
  | modes list scale freq =>
    obtain ⟨h1, h2⟩ := hc
    refine ⟨_, if_neg (by
      rintro (h | ⟨i, hi, h⟩)
      · exact h1 h
      · have := h2 i hi; omega), ?_⟩
    intro k hk
    dsimp only
    rw [setMany_getD _ _ _ h2 (fun i hi => by rw [grow_length]; have := (le_maxFold list 0).2 i hi; omega) k hk, grow_getD]
    rw [setsAmplitude_modes]
    split <;> rfl

theorem child_bad (twoPi eps : K) (s : Input K) (c : Child K) (hc : ¬ GoodChild c) : parseChild twoPi eps s c = none := by
  cases c with
  | other => exact absurd trivial hc
  | mode value number freq => exact absurd trivial hc
  | modes list scale freq =>
    rw [parseChild_modes, if_pos]
    by_contra h
    apply hc
    push Not at h
    exact ⟨h.1, fun i hi => by have := h.2 i hi; omega⟩

theorem parseAll_cons (twoPi eps : K) (c : Child K) (cs : List (Child K)) (s : Input K) :
    parseAll twoPi eps (c :: cs) s = (parseChild twoPi eps s c).bind (parseAll twoPi eps cs) := by
  unfold parseAll; rw [List.foldlM_cons]; rfl

theorem lastSet_cons (f : Child K → Option K) (c : Child K) (cs : List (Child K)) (d : K) :
    (lastSet f (c :: cs)).getD d = (lastSet f cs).getD ((f c).getD d) := by
  unfold lastSet
  rw [List.filterMap_cons]
  cases h : f c with
  | none => rfl
  | some x =>
    dsimp only
    rw [List.getLast?_cons]
    cases (cs.filterMap f).getLast? <;> rfl

/-- The input is read without accesses outside of the vectors if and only if every list of modes is not empty and has positive numbers; then the
amplitude of each mode is the last one given for it, or zero. -/
theorem C92_amplitudes (twoPi eps : K) (cs : List (Child K)) :
    ((∃ s, parseAll twoPi eps cs ⟨[], []⟩ = some s) ↔ ∀ c ∈ cs, GoodChild c) ∧
      ∀ s, parseAll twoPi eps cs ⟨[], []⟩ = some s → ∀ k, 1 ≤ k → s.amp.getD (k-1) 0 = (lastSet (setsAmplitude k) cs).getD 0 := by
  have key : ∀ (s0 : Input K), ((∃ s, parseAll twoPi eps cs s0 = some s) ↔ ∀ c ∈ cs, GoodChild c) ∧
      ∀ s, parseAll twoPi eps cs s0 = some s → ∀ k, 1 ≤ k → s.amp.getD (k-1) 0 = (lastSet (setsAmplitude k) cs).getD (s0.amp.getD (k-1) 0) := by
    induction cs with
    | nil =>
      intro s0
      refine ⟨⟨fun _ c hc => absurd hc (List.not_mem_nil), fun _ => ⟨s0, rfl⟩⟩, ?_⟩
      intro s hs k _
      cases hs
      rfl
    | cons c cs ih =>
      intro s0
      rw [parseAll_cons]
      by_cases hc : GoodChild c
      · obtain ⟨s1, e1, h1⟩ := child_amp twoPi eps s0 c hc
        rw [e1]
        dsimp only [Option.bind]
        obtain ⟨i1, i2⟩ := ih s1
        refine ⟨?_, ?_⟩
        · rw [i1]
          exact ⟨fun h x hx => (List.mem_cons.1 hx).elim (fun e => e ▸ hc) (h x), fun h x hx => h x (List.mem_cons_of_mem _ hx)⟩
        · intro s hs k hk
          rw [i2 s hs k hk, lastSet_cons, h1 k hk]
      · rw [child_bad twoPi eps s0 c hc]
        refine ⟨⟨fun h => (by obtain ⟨s, h⟩ := h; cases h), fun h => absurd (h c List.mem_cons_self) hc⟩, ?_⟩
        intro s hs
        cases hs
  have := key ⟨[], []⟩
  simpa using this

/-- The child gives a frequency for at most one mode. -/
def OneFrequency (eps : K) : Child K → Prop
  | .modes list _ freq => freq > eps → ∀ i ∈ list, ∀ j ∈ list, i = j
  | _ => True

theorem child_omega (twoPi eps : K) (s s' : Input K) (c : Child K) (h : parseChild twoPi eps s c = some s') (k : Nat) (hk : 1 ≤ k) :
    s'.omega.getD (k-1) 0 = match c with
      | .modes list _ freq => if freq > eps ∧ k = list.foldl (fun a i => max a i.toNat) 0 then twoPi*freq else s.omega.getD (k-1) 0
      | c => ((setsFrequency eps k c).map (twoPi * ·)).getD (s.omega.getD (k-1) 0) := by
  cases c with
  | other => cases h; rfl
  | mode value number freq =>
    cases number with
    | none => cases h; simp [setsFrequency]
    | some imode =>
      rw [parseChild_mode] at h
      dsimp only
      by_cases hi : imode > 0
      · rw [if_pos hi] at h
        cases h
        dsimp only
        rw [setsFrequency_mode]
        by_cases hf : freq > eps
        · rw [if_pos hf, set_getD _ _ _ _ (by rw [grow_length]; omega), grow_getD]
          by_cases e : imode = k
          · subst e; simp [hi, hf]
          · rw [if_neg (by omega), if_neg (by simp [e])]; rfl
        · rw [if_neg hf, if_neg (by tauto)]; rfl
      · rw [if_neg hi] at h
        cases h
        rw [setsFrequency_mode]
        rw [if_neg]
        · rfl
        · rintro ⟨e, -⟩
          have := Option.some.inj e
          omega
  | modes list scale freq =>
    rw [parseChild_modes] at h
    split at h
    · cases h
    · next hg =>
      push Not at hg
      cases h
      dsimp only
      obtain ⟨hne, hpos⟩ := hg
      have hm : 1 ≤ list.foldl (fun a i => max a i.toNat) 0 := by
        obtain ⟨i, hi⟩ := List.exists_mem_of_ne_nil _ hne
        have := (le_maxFold list 0).2 i hi
        have := hpos i hi
        omega
      by_cases hf : freq > eps
      · rw [if_pos hf, setSame_getD _ hne _ _ _ (by rw [grow_length]; omega), grow_getD]
        simp only [hf, true_and]
        by_cases e : k = list.foldl (fun a i => max a i.toNat) 0
        · rw [if_pos (by omega), if_pos e]
        · rw [if_neg (by omega), if_neg e]
      · rw [if_neg hf, if_neg (by tauto)]

/-- The angular frequency of each mode is that of the last frequency given for it, or zero, if no list of several modes has a frequency. -/
theorem C92_frequencies (twoPi eps : K) (cs : List (Child K)) (ho : ∀ c ∈ cs, OneFrequency eps c) (s : Input K)
    (h : parseAll twoPi eps cs ⟨[], []⟩ = some s) (k : Nat) (hk : 1 ≤ k) :
    s.omega.getD (k-1) 0 = ((lastSet (setsFrequency eps k) cs).map (twoPi * ·)).getD 0 := by
  have one : ∀ (s0 s1 : Input K) (c : Child K), OneFrequency eps c → parseChild twoPi eps s0 c = some s1 →
      s1.omega.getD (k-1) 0 = ((setsFrequency eps k c).map (twoPi * ·)).getD (s0.omega.getD (k-1) 0) := by
    intro s0 s1 c hc hp
    have hq := child_omega twoPi eps s0 s1 c hp k hk
    cases c with
    | other => exact hq
    | mode value number freq => exact hq
    | modes list scale freq =>
      dsimp only at hq
      rw [hq]
      rw [setsFrequency_modes]
      by_cases hf : freq > eps
      · have hg : ∃ i ∈ list, i.toNat = list.foldl (fun a i => max a i.toNat) 0 ∧ 1 ≤ i := by
          rw [parseChild_modes] at hp
          split at hp
          · cases hp
          · next hg =>
            push Not at hg
            rcases maxFold_mem list 0 with e | ⟨i, hi, e⟩
            · obtain ⟨i, hi⟩ := List.exists_mem_of_ne_nil _ hg.1
              have := (le_maxFold list 0).2 i hi
              have := hg.2 i hi
              omega
            · exact ⟨i, hi, e, by have := hg.2 i hi; omega⟩
        obtain ⟨i, hi, e, h1⟩ := hg
        have hmem : (k : Int) ∈ list ↔ k = list.foldl (fun a i => max a i.toNat) 0 := by
          constructor
          · intro hkm
            have := hc hf _ hkm _ hi
            omega
          · intro hkm
            have : (k : Int) = i := by omega
            rw [this]; exact hi
        simp only [hmem, hf, and_true, true_and]
        split <;> rfl
      · rw [if_neg (by tauto), if_neg (by tauto)]; rfl
  have key : ∀ (s0 : Input K), parseAll twoPi eps cs s0 = some s →
      s.omega.getD (k-1) 0 = ((lastSet (setsFrequency eps k) cs).map (twoPi * ·)).getD (s0.omega.getD (k-1) 0) := by
    clear h
    induction cs with
    | nil => intro s0 h; cases h; rfl
    | cons c cs ih =>
      intro s0 h
      rw [parseAll_cons] at h
      obtain ⟨s1, e1, e2⟩ := Option.bind_eq_some_iff.1 h
      rw [ih (fun x hx => ho x (List.mem_cons_of_mem _ hx)) s1 e2, one s0 s1 c (ho c List.mem_cons_self) e1]
      unfold lastSet
      rw [List.filterMap_cons]
      cases setsFrequency eps k c with
      | none => rfl
      | some x =>
        dsimp only
        rw [List.getLast?_cons]
        cases (cs.filterMap (setsFrequency eps k)).getLast? <;> rfl
  simpa using key ⟨[], []⟩ h

/-- Finding F186: of the modes in a list with a frequency, only the one with the largest number gets this frequency. -/
theorem C92_list_frequency (twoPi eps : K) (list : List Int) (scale freq : K) (hf : freq > eps) (hl : list ≠ []) (hp : ∀ i ∈ list, 1 ≤ i) :
    ∃ s, parseAll twoPi eps [.modes list scale freq] ⟨[], []⟩ = some s ∧ ∀ k : Nat, (k : Int) ∈ list →
      s.omega.getD (k-1) 0 = if ∀ i ∈ list, i ≤ (k : Int) then twoPi*freq else 0 := by
  obtain ⟨s, hs⟩ := (C92_amplitudes twoPi eps [.modes list scale freq]).1.2 (by
    intro c hc
    rw [List.mem_singleton.1 hc]
    exact ⟨hl, hp⟩)
  refine ⟨s, hs, ?_⟩
  intro k hk
  have hk1 := hp _ hk
  rw [parseAll_cons] at hs
  obtain ⟨s1, e1, e2⟩ := Option.bind_eq_some_iff.1 hs
  cases e2
  have := child_omega twoPi eps ⟨[], []⟩ s _ e1 k (by omega)
  dsimp only at this
  rw [this]
  simp only [hf, true_and]
  have hle := le_maxFold list 0
  have hmm := maxFold_mem list 0
  by_cases c : ∀ i ∈ list, i ≤ (k : Int)
  · rw [if_pos c, if_pos]
    have h1 := hle.2 _ hk
    rcases hmm with e | ⟨i, hi, e⟩
    · omega
    · have := c i hi
      omega
  · rw [if_neg c, if_neg]
    · rfl
    · intro e
      apply c
      intro i hi
      have := hle.2 i hi
      omega

/-- At least as many eigenvalues are asked for as there are amplitudes, and not fewer than before, and enough Arnoldi vectors. -/
theorem C92_count (s : Input K) (nev ncv : Nat) :
    (parseEnd s nev ncv).1 = max nev s.amp.length ∧
      (parseEnd s nev ncv).2 = max ncv (if max nev s.amp.length < 10 then 2 * max nev s.amp.length else max nev s.amp.length + 10) := by
  unfold parseEnd
  dsimp only
  constructor <;> split_ifs <;> omega

example : (parseAll (6 : ℚ) 0 [.mode 2 (some 3) 5, .modes [1, 3] 7 0, .other, .mode 4 none 1] ⟨[], []⟩).map
    (fun s => (s.amp, s.omega)) = some ([7, 0, 7], [0, 0, 30]) := by decide +kernel

end IFEM.EigMode
