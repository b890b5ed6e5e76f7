import Verif.Lemmas.BlockLoop
/-!
# Lemmas on `finalize` and on the calls for off-diagonal blocks
-/
namespace IFEM.Lem
open IFEM IFEM.Blk IFEM.Spec.Blk IFEM.Props

section fin
variable (c : Config)

/-- The block `k` with a first degree of freedom. -/
def blkOf (d : Nat → Nat) (k : Nat) : Block := ⟨(c.bas k : Int) + 1, c.cmp k, d k⟩

/-- The components of the blocks of basis `j` before the block `k`. -/
def pre (j k : Nat) : Nat := ∑ i ∈ Finset.range k, if c.bas i = j then c.cmp i else 0

theorem finBlock_loop (d : Nat → Nat) (j nen jd : Nat) : ∀ m, m ≤ c.nBlk →
    (List.range m).foldl (finBlock j nen) (tab c.nBlk (blkOf c d), jd, 0) =
      (tab c.nBlk (blkOf c fun k => if k < m ∧ c.bas k = j then jd + pre c j k else d k), jd + pre c j m, pre c j m * nen) := by
  intro m
  induction m with
  | zero =>
    intro _
    have : (fun k => if k < 0 ∧ c.bas k = j then jd + pre c j k else d k) = d := by funext k; simp
    rw [this]
    simp [pre]
  | succ m ih =>
    intro hm
    rw [List.range_succ, List.foldl_append, ih (by omega), List.foldl_cons, List.foldl_nil]
    unfold finBlock
    dsimp only
    rw [tab_get (show m < c.nBlk by omega)]
    dsimp only
    have hp : pre c j (m+1) = pre c j m + if c.bas m = j then c.cmp m else 0 := by unfold pre; rw [Finset.sum_range_succ]
    by_cases e : c.bas m = j
    · rw [if_pos (by unfold blkOf; dsimp only; rw [e]), tab_set, hp, if_pos e]
      unfold blkOf
      dsimp only
      refine Prod.ext ?_ (Prod.ext ?_ ?_)
      · refine tab_congr fun k _ => ?_
        by_cases ek : k = m
        · subst ek
          rw [if_pos rfl, if_pos ⟨by omega, e⟩]
        · rw [if_neg ek]
          by_cases h : k < m ∧ c.bas k = j
          · rw [if_pos h, if_pos ⟨by omega, h.2⟩]
          · rw [if_neg h, if_neg (fun h' => h ⟨by omega, h'.2⟩)]
      · dsimp only; omega
      · dsimp only; rw [Nat.add_mul]
    · rw [if_neg (by unfold blkOf; dsimp only; omega), hp, if_neg e, add_zero]
      refine Prod.ext ?_ rfl
      refine tab_congr fun k _ => ?_
      unfold blkOf
      dsimp only
      by_cases h : k < m ∧ c.bas k = j
      · rw [if_pos h, if_pos ⟨by omega, h.2⟩]
      · rw [if_neg h, if_neg]
        rintro ⟨h1, h2⟩
        by_cases ek : k = m
        · subst ek; exact e h2
        · exact h ⟨by omega, h2⟩

theorem pre_tot (j : Nat) : pre c j c.nBlk = c.tot j := rfl

theorem pre_before (k : Nat) : pre c (c.bas k) k = c.before k := rfl

variable (bases : List Basis) (hb : ∀ k, k < c.nBlk → ∃ q, bases[c.bas k]? = some q ∧ q.nen = c.nen (c.bas k))
include hb

theorem finBasis_loop : ∀ m, m ≤ c.nBas →
    (List.range m).foldl (finBasis bases c.nBlk) (tab c.nBlk (blkOf c fun _ => 0), 1) =
      (tab c.nBlk (blkOf c fun k => if c.bas k < m then 1 + (c.start (c.bas k) + c.before k) else 0), 1 + c.start m) := by
  intro m
  induction m with
  | zero =>
    intro _
    simp [Config.start]
  | succ m ih =>
    intro hm
    rw [List.range_succ, List.foldl_append, ih (by omega), List.foldl_cons, List.foldl_nil]
    unfold finBasis
    dsimp only
    rw [finBlock_loop c _ _ _ _ _ (le_refl _)]
    refine Prod.ext ?_ ?_
    · refine tab_congr fun k hk => ?_
      unfold blkOf
      congr 1
      dsimp only
      by_cases h : c.bas k = m
      · subst h
        rw [if_pos ⟨hk, rfl⟩, if_pos (by omega), pre_before]; omega
      · rw [if_neg (fun h' => h h'.2)]
        by_cases h' : c.bas k < m
        · rw [if_pos h', if_pos (by omega)]
        · rw [if_neg h', if_neg (by omega)]
    · dsimp only
      have : c.start (m+1) = c.start m + c.nen m * c.tot m := by unfold Config.start; rw [Finset.sum_range_succ]
      rw [this, pre_tot]
      have : c.tot m * ((bases[m]?.map Basis.nen).getD 0) = c.nen m * c.tot m := by
        by_cases h : ∃ k, k < c.nBlk ∧ c.bas k = m
        · obtain ⟨k, hk, rfl⟩ := h
          obtain ⟨q, h1, h2⟩ := hb k hk
          rw [h1]
          simp only [Option.map_some, Option.getD_some, h2]
          ring
        · have : c.tot m = 0 := by
            unfold Config.tot
            exact Finset.sum_eq_zero fun k hk => if_neg fun e => h ⟨k, Finset.mem_range.1 hk, e⟩
          rw [this]; simp
      rw [this]; omega

end fin

section info
variable {R : Type} (c : Config) (s : Elm R) (d : Nat → Nat) (hB : s.blockInfo = tab c.nBlk (blkOf c d))
  (hS : ∀ k, k < c.nBlk → ∃ q, s.basisInfo[c.bas k]? = some q ∧ q.nen = c.nen (c.bas k) ∧ q.ncmp = c.tot (c.bas k))
include hB hS

theorem info_eq (k : Nat) (hk : k < c.nBlk) : s.info k = some ⟨c.nen (c.bas k), c.tot (c.bas k), c.cmp k, d k⟩ := by
  obtain ⟨q, h1, h2, h3⟩ := hS k hk
  unfold Elm.info
  rw [hB, tab_get hk]
  simp only [Option.bind_eq_bind, Option.bind_some]
  unfold blkOf
  dsimp only
  rw [if_neg (by omega), show ((c.bas k : Int) + 1).toNat - 1 = c.bas k by omega, h1]
  simp only [Option.bind_some, h2, h3]

theorem count_eq : s.count = some c.size := by
  have key : ∀ m, m ≤ c.nBlk → (List.range m).foldlM (fun (n : Nat) (i : Nat) => do
      let q ← s.info i
      some (n + q.nc*q.nen)) 0 = some (∑ k ∈ Finset.range m, c.nen (c.bas k) * c.cmp k) := by
    intro m
    induction m with
    | zero => intro _; rfl
    | succ m ih =>
      intro hm
      rw [List.range_succ, List.foldlM_append, ih (by omega)]
      simp only [List.foldlM_cons, List.foldlM_nil, Option.bind_eq_bind, Option.bind_some, info_eq c s d hB hS m (by omega)]
      rw [Finset.sum_range_succ, mul_comm (c.cmp m)]
      rfl
  unfold Elm.count
  rw [hB, tab_len]
  exact key _ (le_refl _)

end info

/-- `finalize` after all calls. -/
theorem finalize_eq {R : Type} (c : Config) (s : Elm R) (hB : s.blockInfo = tab c.nBlk (blkOf c fun _ => 0)) (hn : s.basisInfo.length = c.nBas)
    (hS : ∀ k, k < c.nBlk → ∃ q, s.basisInfo[c.bas k]? = some q ∧ q.nen = c.nen (c.bas k) ∧ q.ncmp = c.tot (c.bas k)) :
    s.finalize = some (true, { s with neldof := c.size, blockInfo := tab c.nBlk (blkOf c fun k => 1 + (c.start (c.bas k) + c.before k)) }) := by
  unfold Elm.finalize
  rw [count_eq c s _ hB hS]
  simp only [Option.bind_eq_bind, Option.bind_some]
  rw [hB, hn, tab_len, finBasis_loop c s.basisInfo (fun k hk => by obtain ⟨q, a, b, _⟩ := hS k hk; exact ⟨q, a, b⟩) _ (le_refl _)]
  have : tab c.nBlk (blkOf c fun k => if c.bas k < c.nBas then 1 + (c.start (c.bas k) + c.before k) else 0) = tab c.nBlk (blkOf c fun k => 1 + (c.start (c.bas k) + c.before k)) := by
    refine tab_congr fun k hk => ?_
    unfold blkOf
    dsimp only
    rw [if_pos (c.valid k hk)]
  rw [this, size_eq]
  simp

end IFEM.Lem
