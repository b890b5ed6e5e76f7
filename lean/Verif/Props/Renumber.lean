import Verif.Lemmas.Renumber
import Verif.Model.Arrays
import Mathlib.Data.List.Nodup
/-!
# C21: renumbering of the global nodes
-/
namespace IFEM.Props
open IFEM IFEM.Spec IFEM.Lem

/-- The order-preserving renumbering: the used node numbers are mapped to 1..N without holes, keeping their order, in all patches; the returned mapping
holds exactly the used numbers, and the returned count tells whether anything changed. -/
theorem C21_order_preserving (mlgns : List (List Int)) (hpos : ∀ n, Used mlgns n → 1 ≤ n) :
    ∃ f : Int → Int, Numbers mlgns f (renumberModel mlgns []).2.1.length ∧
      (∀ a b, Used mlgns a → Used mlgns b → a < b → f a < f b) ∧
      (∀ a, Used mlgns a → f a ≤ a) ∧
      (renumberModel mlgns []).1 = mlgns.map (fun l => l.map f) ∧
      (∀ k v, (renumberModel mlgns []).2.1.lookup k = some v ↔ Used mlgns k ∧ v = f k) ∧
      ((renumberModel mlgns []).2.2 = 0 ↔ ∀ a, Used mlgns a → f a = a) := by
  have hc := collect_spec mlgns
  have hid : ∀ q ∈ collectNodes mlgns [], q.2 = q.1 ∧ (0:Int) < q.1 := fun q hq => by
    have := (hc.2 q).mp hq
    have h2 := hpos _ this.2
    exact ⟨this.1, by omega⟩
  obtain ⟨vals, e1, e2, e3, e4⟩ := compress_spec (collectNodes mlgns []) 0 0 hc.1 hid
  generalize hm : collectNodes mlgns [] = m at *
  have hkeys : ∀ k, k ∈ m.map Prod.fst ↔ Used mlgns k := by
    intro k
    rw [List.mem_map]
    constructor
    · rintro ⟨q, hq, rfl⟩; exact ((hc.2 q).mp hq).2
    · intro h; exact ⟨(k, k), (hc.2 (k, k)).mpr ⟨rfl, h⟩, rfl⟩
  have hasc : (m.map Prod.fst).Pairwise (· < ·) := List.pairwise_map.mpr hc.1
  have hnd : (m.map Prod.fst).Nodup := hasc.imp fun h => by omega
  let ks := m.map Prod.fst
  -- the values
  have hval : ∀ k, Used mlgns k → ∃ i : Nat, i < m.length ∧ ks[i]? = some k ∧ (ks.zip vals).lookup k = some ((i : Int) + 1) := by
    intro k hk
    obtain ⟨i, hi⟩ := List.mem_iff_getElem?.mp ((hkeys k).mpr hk)
    obtain ⟨hlt, _⟩ := List.getElem?_eq_some_iff.mp hi
    rw [List.length_map] at hlt
    refine ⟨i, hlt, hi, ?_⟩
    have := e3 i hlt
    rw [show (0:Int) + 1 + i = (i:Int) + 1 by omega] at this
    exact lookup_zip ks vals i k _ hi this hnd
  let f : Int → Int := fun k => ((ks.zip vals).lookup k).getD k
  have hf : ∀ k, Used mlgns k → ∃ i : Nat, i < m.length ∧ ks[i]? = some k ∧ f k = (i : Int) + 1 := by
    intro k hk
    obtain ⟨i, h1, h2, h3⟩ := hval k hk
    exact ⟨i, h1, h2, by show ((ks.zip vals).lookup k).getD k = _; rw [h3]; rfl⟩
  have hzip : (renumberModel mlgns []).2.1 = ks.zip vals := by
    unfold renumberModel; rw [hm]; exact e1
  have hren : (renumberModel mlgns []).2.2 = ((ks.zip vals).filter fun q => decide (q.1 ≠ q.2)).length := by
    unfold renumberModel; rw [hm]; dsimp only; rw [e4, Nat.zero_add]
  have hlen : (renumberModel mlgns []).2.1.length = m.length := by
    rw [hzip]
    show ((m.map Prod.fst).zip vals).length = m.length
    rw [List.length_zip, e2, List.length_map, Nat.min_self]
  have hmono : ∀ a b, Used mlgns a → Used mlgns b → a < b → f a < f b := by
    intro a b ha hb hab
    obtain ⟨i, hi, gi, fi⟩ := hf a ha
    obtain ⟨j, hj, gj, fj⟩ := hf b hb
    rw [fi, fj]
    rcases Nat.lt_trichotomy i j with h | h | h
    · omega
    · subst h; rw [gi] at gj; simp at gj; omega
    · obtain ⟨hi', ei⟩ := List.getElem?_eq_some_iff.mp gi
      obtain ⟨hj', ej⟩ := List.getElem?_eq_some_iff.mp gj
      have := List.pairwise_iff_getElem.mp hasc j i hj' hi' h
      change ks[j] < ks[i] at this
      rw [ei, ej] at this
      omega
  have hlookup : ∀ k v, (ks.zip vals).lookup k = some v ↔ Used mlgns k ∧ v = f k := by
    intro k v
    constructor
    · intro h
      refine ⟨?_, by show v = ((ks.zip vals).lookup k).getD k; rw [h]; rfl⟩
      by_contra hn
      rw [lookup_none ks vals k (fun hc => hn ((hkeys k).mp hc))] at h
      simp at h
    · rintro ⟨h, rfl⟩
      obtain ⟨i, _, _, h3⟩ := hval k h
      show _ = some (((ks.zip vals).lookup k).getD k)
      rw [h3]; rfl
  have hzero : (renumberModel mlgns []).2.2 = 0 ↔ ∀ a, Used mlgns a → f a = a := by
    rw [hren, List.length_eq_zero_iff, List.filter_eq_nil_iff]
    constructor
    · intro h a ha
      obtain ⟨i, _, _, h3⟩ := hval a ha
      have h4 := h _ (lookup_mem _ _ _ h3)
      simp at h4
      show ((ks.zip vals).lookup a).getD a = a
      rw [h3, Option.getD_some]; omega
    · intro h q hq
      have hq1 : q.1 ∈ ks := by
        have := List.of_mem_zip (a := q.1) (b := q.2) hq
        exact this.1
      have hu := (hkeys q.1).mp hq1
      have : (ks.zip vals).lookup q.1 = some q.2 := lookup_of_mem _ _ _ (by
        rw [List.map_fst_zip (by show (m.map Prod.fst).length ≤ vals.length; rw [e2, List.length_map])]; exact hnd) hq
      have h5 := ((hlookup q.1 q.2).mp this).2
      rw [h q.1 hu] at h5
      simp [h5]
  refine ⟨f, ⟨?_, ?_, ?_⟩, hmono, ?_, ?_, by rw [hzip]; exact hlookup, hzero⟩
  · intro n hn
    obtain ⟨i, hi, _, fi⟩ := hf n hn
    rw [hlen, fi]; omega
  · intro a b ha hb hab
    rcases Int.lt_trichotomy a b with h | h | h
    · have := hmono a b ha hb h; omega
    · exact h
    · have := hmono b a hb ha h; omega
  · intro k h1 h2
    rw [hlen] at h2
    have hi : (k-1).toNat < ks.length := by rw [List.length_map]; omega
    have hu := (hkeys ks[(k-1).toNat]).mp (List.getElem_mem hi)
    refine ⟨_, hu, ?_⟩
    obtain ⟨i, hi2, gi, fi⟩ := hf _ hu
    rw [fi]
    obtain ⟨hi3, ei⟩ := List.getElem?_eq_some_iff.mp gi
    have : i = (k-1).toNat := by
      rcases Nat.lt_trichotomy i (k-1).toNat with h | h | h
      · exact absurd ei (List.pairwise_iff_getElem.mp hnd _ _ hi3 hi h)
      · exact h
      · exact absurd ei.symm (List.pairwise_iff_getElem.mp hnd _ _ hi hi3 h)
    omega
  · -- new numbers never exceed the old ones
    intro a ha
    obtain ⟨i, hi, gi, fi⟩ := hf a ha
    rw [fi]
    obtain ⟨hi3, ei⟩ := List.getElem?_eq_some_iff.mp gi
    have key : ∀ j (hj : j < ks.length), (j : Int) + 1 ≤ ks[j] := by
      intro j
      induction j with
      | zero => intro hj; have := hpos _ ((hkeys _).mp (List.getElem_mem hj)); exact this
      | succ j ih =>
        intro hj
        have h1 := ih (by omega)
        have h2 := List.pairwise_iff_getElem.mp hasc j (j+1) (by show j < ks.length; omega) hj (by omega)
        change ks[j] < ks[j+1] at h2
        push_cast
        omega
    have := key i hi3
    rw [ei] at this
    exact this
  · by_cases hz : (renumberModel mlgns []).2.2 > 0
    · unfold renumberModel at hz ⊢
      rw [hm] at hz ⊢
      dsimp only at hz ⊢
      rw [if_pos hz]
      apply List.map_congr_left
      intro l hl
      apply List.map_congr_left
      intro n hn
      unfold renumberOld
      rw [e1]
      obtain ⟨i, _, _, h3⟩ := hval n ⟨l, hl, hn⟩
      change _ = ((ks.zip vals).lookup n).getD n
      rw [h3]
      rfl
    · have h0 := hzero.mp (by omega)
      have hid2 : mlgns.map (fun l => l.map f) = mlgns := by
        conv_rhs => rw [← List.map_id mlgns]
        apply List.map_congr_left
        intro l hl
        conv_rhs => rw [id, ← List.map_id l]
        apply List.map_congr_left
        intro n hn
        exact h0 n ⟨l, hl, hn⟩
      rw [hid2]
      unfold renumberModel at hz ⊢
      dsimp only at hz ⊢
      rw [if_neg hz]

/-- The renumbering by first occurrence: the used node numbers are mapped to 1..N without holes, in the order of their first occurrence in the patches. -/
theorem C21_first_occurrence (mlgns : List (List Int)) :
    ∃ f : Int → Int, Numbers mlgns f (renumberPatches mlgns 0 [] 0).2.1.toNat ∧
      (renumberPatches mlgns 0 [] 0).1 = mlgns.map (fun l => l.map f) ∧
      (∀ k v, (renumberPatches mlgns 0 [] 0).2.2.1.lookup k = some v ↔ Used mlgns k ∧ v = f k) ∧
      (∀ a b, OccursBefore mlgns.flatten a b → f a < f b) := by
  have h0 : RunMap [] 0 := ⟨rfl, by simp, fun i q hq => by simp at hq⟩
  obtain ⟨e, e1, e2, e3, e4⟩ := renumberPatches_spec mlgns 0 [] 0 h0
  rw [List.nil_append] at e1 e2 e3 e4
  have hN : ((renumberPatches mlgns 0 [] 0).2.1.toNat : Int) = (renumberPatches mlgns 0 [] 0).2.1 := by
    have := e2.1; omega
  have hu : ∀ k, Used mlgns k ↔ ∃ v, e.lookup k = some v := by
    intro k
    rw [lookup_some_iff, e3]; simp
  have hl : ∀ k, Used mlgns k → e.lookup k = some ((e.lookup k).getD k) := by
    intro k hk
    obtain ⟨v, hv⟩ := (hu k).mp hk
    rw [hv]; rfl
  refine ⟨fun k => (e.lookup k).getD k, ⟨?_, ?_, ?_⟩, e4, ?_, ?_⟩
  · intro n hn
    rw [hN]
    exact runMap_lookup e _ e2 n _ (hl n hn)
  · intro a b ha hb hab
    exact runMap_inj e _ e2 a b _ (hl a ha) (by rw [show (e.lookup a).getD a = (e.lookup b).getD b from hab]; exact hl b hb)
  · intro k h1 h2
    rw [hN] at h2
    obtain ⟨n, hn⟩ := runMap_onto e _ e2 k h1 h2
    exact ⟨n, (hu n).mpr ⟨k, hn⟩, by show (e.lookup n).getD n = k; rw [hn]; rfl⟩
  · intro k v
    rw [e1]
    constructor
    · intro h; exact ⟨(hu k).mpr ⟨v, h⟩, by show v = (e.lookup k).getD k; rw [h]; rfl⟩
    · rintro ⟨h, rfl⟩; exact hl k h
  · intro a b hab
    have hpf := patches_flatten mlgns 0 [] 0 h0
    rw [e1] at hpf
    have hma : a ∈ mlgns.flatten ∧ b ∈ mlgns.flatten := by
      obtain ⟨s, t, hh, _, _, _, hb⟩ := hab
      rw [hh]
      exact ⟨by simp, by simp [hb]⟩
    have ua : Used mlgns a := by simpa [Used] using hma.1
    have ub : Used mlgns b := by simpa [Used] using hma.2
    exact loop_order mlgns.flatten a b _ _ hab (by rw [← hpf]; exact hl a ua) (by rw [← hpf]; exact hl b ub)

/-- Renumbering of the model, by either method: all patches are renumbered with the same numbering from 1 to the returned number of nodes, the mapping holds
exactly the used numbers, and the returned inverse mapping recovers the old numbers. -/
theorem C21_model_numbering (preserve : Bool) (mlgns : List (List Int)) (hpos : ∀ n, Used mlgns n → 1 ≤ n) :
    ∃ f : Int → Int, Numbers mlgns f (renumberSIM preserve mlgns).2.2.1 ∧
      (renumberSIM preserve mlgns).1 = mlgns.map (fun l => l.map f) ∧
      (∀ k v, (renumberSIM preserve mlgns).2.1.lookup k = some v ↔ Used mlgns k ∧ v = f k) ∧
      (∀ a, Used mlgns a → at1? (renumberSIM preserve mlgns).2.2.2 (f a) = some a) := by
  have fin : ∀ (f : Int → Int) (m : List (Int × Int)) (N : Nat), Numbers mlgns f N → (m.map Prod.fst).Nodup →
      (∀ k v, m.lookup k = some v ↔ Used mlgns k ∧ v = f k) →
      ∀ a, Used mlgns a → at1? (loc2glb m N) (f a) = some a := by
    intro f m N hN hnd hl a ha
    have hb := hN.range a ha
    unfold at1? at0?
    rw [if_pos (by omega)]
    apply loc2glb_spec m N _ a (f a) (lookup_mem m a _ ((hl a _).mpr ⟨ha, rfl⟩)) hb.1 hb.2
    have hmem : ∀ q ∈ m, Used mlgns q.1 ∧ q.2 = f q.1 := fun q hq => (hl q.1 q.2).mp (lookup_of_mem m q.1 q.2 hnd hq)
    have hnd' : m.Nodup := List.Nodup.of_map _ hnd
    rw [List.nodup_map_iff_inj_on hnd']
    intro x hx y hy hxy
    obtain ⟨ux, ex⟩ := hmem x hx
    obtain ⟨uy, ey⟩ := hmem y hy
    have : x.1 = y.1 := hN.inj _ _ ux uy (by rw [← ex, ← ey, hxy])
    exact Prod.ext this hxy
  cases preserve with
  | true =>
    obtain ⟨f, hN, _, _, h1, h2, _⟩ := C21_order_preserving mlgns hpos
    refine ⟨f, hN, h1, h2, ?_⟩
    apply fin f _ _ hN ?_ h2
    have hc := collect_spec mlgns
    have hid : ∀ q ∈ collectNodes mlgns [], q.2 = q.1 ∧ (0:Int) < q.1 := fun q hq => by
      have := (hc.2 q).mp hq
      have h2 := hpos _ this.2
      exact ⟨this.1, by omega⟩
    obtain ⟨vals, e1, e2, _, _⟩ := compress_spec (collectNodes mlgns []) 0 0 hc.1 hid
    show (((renumberModel mlgns []).2.1).map Prod.fst).Nodup
    unfold renumberModel
    dsimp only
    rw [e1, List.map_fst_zip (by rw [e2, List.length_map])]
    exact (List.pairwise_map.mpr hc.1 : ((collectNodes mlgns []).map Prod.fst).Pairwise (· < ·)).imp fun h => by omega
  | false =>
    obtain ⟨f, hN, h1, h2, _⟩ := C21_first_occurrence mlgns
    refine ⟨f, hN, h1, h2, ?_⟩
    apply fin f _ _ hN ?_ h2
    have h0 : RunMap [] 0 := ⟨rfl, by simp, fun i q hq => by simp at hq⟩
    obtain ⟨e, e1, e2, e3, e4⟩ := renumberPatches_spec mlgns 0 [] 0 h0
    show (((renumberPatches mlgns 0 [] 0).2.2.1).map Prod.fst).Nodup
    rw [e1, List.nil_append]
    rw [List.nil_append] at e2
    exact e2.2.1

/-- Three patches with a hole in the numbering, a shared node and unordered tables. -/
example : renumberSIM true [[2,5,3],[5,9,7],[9,2]] = ([[1,3,2],[3,5,4],[5,1]], [(2,1),(3,2),(5,3),(7,4),(9,5)], 5, [2,3,5,7,9]) := by decide
example : renumberSIM false [[2,5,3],[5,9,7],[9,2]] = ([[1,2,3],[2,4,5],[4,1]], [(2,1),(5,2),(3,3),(9,4),(7,5)], 5, [2,5,3,9,7]) := by decide

end IFEM.Props
