import Verif.Lemmas.SupelSplit
import Mathlib.Algebra.BigOperators.Fin
import Mathlib.Algebra.BigOperators.Intervals
/-! The sub-matrices of a split matrix. -/
namespace IFEM.Supel
open IFEM.Spec IFEM.Props
variable {K : Type} [Field K] {n n1 n2 : Nat}

/-- `M` holds the entries of `f` in the given rows and columns. -/
def Sub (M : Sparse K) {a b : Nat} (g : Fin a → Fin n) (h : Fin b → Fin n) (f : Fin n → Fin n → K) : Prop :=
  ∃ S : SpAbs K, Impl M S ∧ S.mode = .pattern ∧ S.nrow = a ∧ S.ncol = b ∧ ∀ (i : Fin a) (j : Fin b), S.val (i.1+1) (j.1+1) = f (g i) (h j)

/-- One entry replaced. -/
def upd (f : Fin n → Fin n → K) (p q : Fin n) (v : K) : Fin n → Fin n → K := fun x y => if x = p ∧ y = q then v else f x y

theorem sub_set {M : Sparse K} {a b : Nat} {g : Fin a → Fin n} {h : Fin b → Fin n} {f : Fin n → Fin n → K} (hM : Sub M g h f) (hg : Function.Injective g) (hh : Function.Injective h)
    (i : Fin a) (j : Fin b) (v : K) : ∃ M', M.modify? (fun _ => v) (i.1+1) (j.1+1) = some M' ∧ Sub M' g h (upd f (g i) (h j) v) := by
  obtain ⟨S, h1, h2, h3, h4, h5⟩ := hM
  obtain ⟨g1, -, g3⟩ := impl_update h1 (i.1+1) (j.1+1) (fun _ => v)
  have hin : (1 ≤ i.1+1 ∧ i.1+1 ≤ S.nrow ∧ 1 ≤ j.1+1 ∧ j.1+1 ≤ S.ncol) ∧ (S.mode = .pattern ∨ S.has (i.1+1) (j.1+1)) :=
    ⟨by have := i.2; have := j.2; omega, .inl h2⟩
  obtain ⟨M', hM'⟩ := Option.isSome_iff_exists.1 (g3.2 hin)
  rw [hM'] at g1
  refine ⟨M', hM', _, g1, ?_⟩
  unfold SpAbs.update
  rw [if_pos hin]
  refine ⟨h2, h3, h4, ?_⟩
  intro i' j'
  dsimp only
  unfold upd
  rw [h5]
  by_cases hc : i' = i ∧ j' = j
  · obtain ⟨rfl, rfl⟩ := hc
    simp
  · rw [if_neg, if_neg]
    · exact fun hx => hc ⟨hg hx.1, hh hx.2⟩
    · simp only [Nat.add_right_cancel_iff]
      exact fun hx => hc ⟨Fin.ext hx.1, Fin.ext hx.2⟩

theorem sub_skip {M : Sparse K} {a b : Nat} {g : Fin a → Fin n} {h : Fin b → Fin n} {f : Fin n → Fin n → K} (hM : Sub M g h f) (p q : Fin n) (v : K)
    (hx : (∀ i, g i ≠ p) ∨ ∀ j, h j ≠ q) : Sub M g h (upd f p q v) := by
  obtain ⟨S, h1, h2, h3, h4, h5⟩ := hM
  refine ⟨S, h1, h2, h3, h4, ?_⟩
  intro i j
  rw [h5]
  unfold upd
  rw [if_neg]
  rintro ⟨e1, e2⟩
  rcases hx with hx | hx
  · exact hx i e1
  · exact hx j e2

/-- The four sub-matrices hold the entries of `f`. -/
structure Split (d : Division n n1 n2) (S : Parts K) (f : Fin n → Fin n → K) : Prop where
  p11 : Sub S.a11 d.int d.int f
  p21 : Sub S.a21 d.ext d.int f
  p12 : Sub S.a12 d.int d.ext f
  p22 : Sub S.a22 d.ext d.ext f

theorem _root_.IFEM.Spec.Division.int_inj (d : Division n n1 n2) : Function.Injective d.int := d.int_mono.injective
theorem _root_.IFEM.Spec.Division.ext_inj (d : Division n n1 n2) : Function.Injective d.ext := d.ext_mono.injective

theorem _root_.IFEM.Spec.Division.disj (d : Division n n1 n2) (a : Fin n1) (b : Fin n2) : d.int a ≠ d.ext b := by
  intro h
  have := @d.all.1 (.inl a) (.inr b) h
  cases this

theorem _root_.IFEM.Spec.Division.cases (d : Division n n1 n2) (p : Fin n) : (∃ a, d.int a = p) ∨ ∃ b, d.ext b = p := by
  obtain ⟨x, hx⟩ := d.all.2 p
  cases x with
  | inl a => exact .inl ⟨a, hx⟩
  | inr b => exact .inr ⟨b, hx⟩

/-- The positions of the internal equations. -/
def _root_.IFEM.Spec.Division.I (d : Division n n1 n2) : List Nat := List.ofFn fun a => (d.int a).1
/-- The positions of the retained equations. -/
def _root_.IFEM.Spec.Division.E (d : Division n n1 n2) : List Nat := List.ofFn fun b => (d.ext b).1

theorem _root_.IFEM.Spec.Division.I_get (d : Division n n1 n2) (a : Fin n1) : (d.I)[a.1]? = some (d.int a).1 := by unfold Division.I; simp
theorem _root_.IFEM.Spec.Division.E_get (d : Division n n1 n2) (b : Fin n2) : (d.E)[b.1]? = some (d.ext b).1 := by unfold Division.E; simp

theorem _root_.IFEM.Spec.Division.count (d : Division n n1 n2) : n1 + n2 = n := by
  have := Fintype.card_of_bijective d.all
  simpa using this

theorem _root_.IFEM.Spec.Division.shuf (d : Division n n1 n2) : Shuf 0 n d.I d.E := by
  have hI : d.I.Pairwise (· < ·) := by
    unfold Division.I
    rw [List.pairwise_ofFn]
    exact fun i j h => d.int_mono h
  have hE : d.E.Pairwise (· < ·) := by
    unfold Division.E
    rw [List.pairwise_ofFn]
    exact fun i j h => d.ext_mono h
  apply shuf_of_perm _ _ _ _ hI hE
  rw [List.perm_ext_iff_of_nodup]
  · intro x
    rw [List.mem_append, List.mem_range'_1]
    unfold Division.I Division.E
    rw [List.mem_ofFn, List.mem_ofFn]
    constructor
    · rintro (⟨a, rfl⟩ | ⟨a, rfl⟩)
      · exact ⟨by omega, by have := (d.int a).2; omega⟩
      · exact ⟨by omega, by have := (d.ext a).2; omega⟩
    · intro hx
      rcases d.cases ⟨x, by omega⟩ with ⟨a, ha⟩ | ⟨a, ha⟩
      · exact .inl ⟨a, by rw [ha]⟩
      · exact .inr ⟨a, by rw [ha]⟩
  · rw [List.nodup_append]
    refine ⟨hI.imp (fun h => Nat.ne_of_lt h), hE.imp (fun h => Nat.ne_of_lt h), ?_⟩
    unfold Division.I Division.E
    intro x hx y hy
    rw [List.mem_ofFn] at hx hy
    obtain ⟨a, rfl⟩ := hx
    obtain ⟨b, rfl⟩ := hy
    exact fun h => d.disj a b (Fin.ext h)
  · exact List.nodup_range'

/-- The numbers of the retained equations. -/
def _root_.IFEM.Spec.Division.meqn2 (d : Division n n1 n2) : List Int := nums d.E

theorem _root_.IFEM.Spec.Division.map_int (d : Division n n1 n2) (a : Fin n1) : at0? (eqnLoop d.meqn2 n 0 0 0 0) ((((d.int a).1 + 1 : Nat) : Int) - 1) = some ((a.1 : Int) + 1) := by
  have h := (eqnLoop_spec d.meqn2 d.shuf 0 0 0 rfl).1 a.1 _ (d.I_get a)
  rw [show (((d.int a).1 + 1 : Nat) : Int) - 1 = ((d.int a).1 : Int) by push_cast; ring]
  unfold at0?
  rw [if_pos (by omega)]
  simpa using h

theorem _root_.IFEM.Spec.Division.map_ext (d : Division n n1 n2) (b : Fin n2) : at0? (eqnLoop d.meqn2 n 0 0 0 0) ((((d.ext b).1 + 1 : Nat) : Int) - 1) = some (-((b.1 : Int) + 1)) := by
  have h := (eqnLoop_spec d.meqn2 d.shuf 0 0 0 rfl).2 b.1 _ (d.E_get b)
  rw [show (((d.ext b).1 + 1 : Nat) : Int) - 1 = ((d.ext b).1 : Int) by push_cast; ring]
  unfold at0?
  rw [if_pos (by omega)]
  simpa using h

theorem splitStep_spec (d : Division n n1 n2) (S : Parts K) (f : Fin n → Fin n → K) (h : Split d S f) (p q : Fin n) (v : K) :
    ∃ S', splitStep (eqnLoop d.meqn2 n 0 0 0 0) S ((p.1+1, q.1+1), v) = some S' ∧ Split d S' (upd f p q v) := by
  rcases d.cases p with ⟨a, rfl⟩ | ⟨a, rfl⟩ <;> rcases d.cases q with ⟨b, rfl⟩ | ⟨b, rfl⟩
  · obtain ⟨M', g1, g2⟩ := sub_set h.p11 d.int_inj d.int_inj a b v
    refine ⟨{ S with a11 := M' }, ?_, ⟨g2, sub_skip h.p21 _ _ _ (.inl fun i => (d.disj a i).symm), sub_skip h.p12 _ _ _ (.inr fun i => (d.disj b i).symm), sub_skip h.p22 _ _ _ (.inl fun i => (d.disj a i).symm)⟩⟩
    unfold splitStep
    dsimp only
    rw [d.map_int, d.map_int]
    dsimp only
    rw [if_pos (by omega), show ((a.1 : Int) + 1).toNat = a.1 + 1 by omega, show ((b.1 : Int) + 1).toNat = b.1 + 1 by omega, g1]
    rfl
  · obtain ⟨M', g1, g2⟩ := sub_set h.p12 d.int_inj d.ext_inj a b v
    refine ⟨{ S with a12 := M' }, ?_, ⟨sub_skip h.p11 _ _ _ (.inr fun i => d.disj i b), sub_skip h.p21 _ _ _ (.inl fun i => (d.disj a i).symm), g2, sub_skip h.p22 _ _ _ (.inl fun i => (d.disj a i).symm)⟩⟩
    unfold splitStep
    dsimp only
    rw [d.map_int, d.map_ext]
    dsimp only
    rw [if_neg (by omega), if_neg (by omega), if_pos (by omega), show ((a.1 : Int) + 1).toNat = a.1 + 1 by omega, show (-(-((b.1 : Int) + 1))).toNat = b.1 + 1 by omega, g1]
    rfl
  · obtain ⟨M', g1, g2⟩ := sub_set h.p21 d.ext_inj d.int_inj a b v
    refine ⟨{ S with a21 := M' }, ?_, ⟨sub_skip h.p11 _ _ _ (.inl fun i => d.disj i a), g2, sub_skip h.p12 _ _ _ (.inl fun i => d.disj i a), sub_skip h.p22 _ _ _ (.inr fun i => (d.disj b i).symm)⟩⟩
    unfold splitStep
    dsimp only
    rw [d.map_int, d.map_ext]
    dsimp only
    rw [if_neg (by omega), if_pos (by omega), show ((b.1 : Int) + 1).toNat = b.1 + 1 by omega, show (-(-((a.1 : Int) + 1))).toNat = a.1 + 1 by omega, g1]
    rfl
  · obtain ⟨M', g1, g2⟩ := sub_set h.p22 d.ext_inj d.ext_inj a b v
    refine ⟨{ S with a22 := M' }, ?_, ⟨sub_skip h.p11 _ _ _ (.inl fun i => d.disj i a), sub_skip h.p21 _ _ _ (.inr fun i => d.disj i b), sub_skip h.p12 _ _ _ (.inl fun i => d.disj i a), g2⟩⟩
    unfold splitStep
    dsimp only
    rw [d.map_ext, d.map_ext]
    dsimp only
    rw [if_neg (by omega), if_neg (by omega), if_neg (by omega), show (-(-((a.1 : Int) + 1))).toNat = a.1 + 1 by omega, show (-(-((b.1 : Int) + 1))).toNat = b.1 + 1 by omega, g1]
    rfl

theorem splitLoop_spec (d : Division n n1 n2) : ∀ (T : VMap K), (T.map Prod.fst).Nodup → (∀ p ∈ T, 1 ≤ p.1.1 ∧ p.1.1 ≤ n ∧ 1 ≤ p.1.2 ∧ p.1.2 ≤ n) →
    ∀ (S : Parts K) (f : Fin n → Fin n → K), Split d S f →
    ∃ S', T.foldlM (splitStep (eqnLoop d.meqn2 n 0 0 0 0)) S = some S' ∧ Split d S' fun p q => (VMap.find? T (p.1+1, q.1+1)).getD (f p q)
  | [], _, _, S, f, h => ⟨S, rfl, h⟩
  | t :: T, hn, hr, S, f, h => by
    rw [List.map_cons, List.nodup_cons] at hn
    have ht := hr t List.mem_cons_self
    obtain ⟨⟨r, c⟩, v⟩ := t
    dsimp only at ht hn
    obtain ⟨p, hp⟩ : ∃ p : Fin n, r = p.1 + 1 := ⟨⟨r-1, by omega⟩, by dsimp only; omega⟩
    obtain ⟨q, hq⟩ : ∃ q : Fin n, c = q.1 + 1 := ⟨⟨c-1, by omega⟩, by dsimp only; omega⟩
    subst hp hq
    obtain ⟨S1, g1, g2⟩ := splitStep_spec d S f h p q v
    obtain ⟨S2, k1, k2⟩ := splitLoop_spec d T hn.2 (fun x hx => hr x (List.mem_cons_of_mem _ hx)) S1 _ g2
    refine ⟨S2, ?_, ?_⟩
    · rw [List.foldlM_cons, g1]
      exact k1
    · have : (fun (p' q' : Fin n) => (VMap.find? ((((p.1+1, q.1+1), v) : (Nat × Nat) × K) :: T) (p'.1+1, q'.1+1)).getD (f p' q')) =
          fun (p' q' : Fin n) => (VMap.find? T (p'.1+1, q'.1+1)).getD (upd f p q v p' q') := by
        funext p' q'
        rw [VMap.find?_cons]
        unfold upd
        by_cases hc : p' = p ∧ q' = q
        · obtain ⟨rfl, rfl⟩ := hc
          rw [if_pos rfl, VMap.find?_eq_none (fun x hx he => hn.1 (List.mem_map.2 ⟨x, hx, he⟩))]
          simp
        · rw [if_neg, if_neg hc]
          intro he
          simp only [Prod.mk.injEq, Nat.add_right_cancel_iff] at he
          exact hc ⟨(Fin.ext he.1).symm, (Fin.ext he.2).symm⟩
      rw [this]
      exact k2

theorem sub_empty (a b : Nat) (sv : SparseSolver) (g : Fin a → Fin n) (h : Fin b → Fin n) : Sub ({ nrow := a, ncol := b, solver := sv } : Sparse K) g h (fun _ _ => 0) :=
  ⟨_, impl_empty a b sv, rfl, rfl, rfl, fun _ _ => rfl⟩

/-- Splitting gives the four sub-matrices. -/
theorem split_spec (d : Division n n1 n2) (A : Sparse K) (A' : Matrix (Fin n) (Fin n) K) (T : VMap K) (hT : Holds A T) (hl : A.editable ≠ .locked) (he : A.elem ≠ []) (hA : SpRep A A')
    (h1 : 0 < n1) (h2 : 0 < n2) : ∃ S, split A d.meqn2 = some (some S) ∧ Split d S A' := by
  obtain ⟨e1, -⟩ := hT.edit hl
  have hc := d.count
  have hlen : d.meqn2.length = n2 := by unfold Division.meqn2 nums Division.E; simp
  obtain ⟨S, g1, g2⟩ := splitLoop_spec d T hT.nodup (fun p hp => by have := hT.range p hp; rw [hA.rows, hA.cols] at this; exact this)
    ⟨{ nrow := n1, ncol := n1, solver := A.solver }, { nrow := n2, ncol := n1, solver := SparseSolver.none }, { nrow := n1, ncol := n2, solver := SparseSolver.none }, { nrow := n2, ncol := n2, solver := SparseSolver.none }⟩
    (fun _ _ => 0) ⟨sub_empty .., sub_empty .., sub_empty .., sub_empty ..⟩
  refine ⟨S, ?_, ?_⟩
  · unfold split
    have hne : A.elem.isEmpty = false := by rw [List.isEmpty_eq_false_iff]; exact he
    rw [if_neg (by rw [hne, hA.rows, hA.cols]; simp)]
    dsimp only
    rw [hlen, hA.rows, hA.cols, if_neg (by omega), show n - n2 = n1 by omega, e1, g1]
    rfl
  · have : (fun (p q : Fin n) => (VMap.find? T (p.1+1, q.1+1)).getD 0) = A' := by
      funext p q
      rw [← hA.ent]
      unfold SpVal
      rw [get?_spec hT]
      rfl
    rw [← this]
    exact g2

theorem Sub.rep {M : Sparse K} {a b : Nat} {g : Fin a → Fin n} {h : Fin b → Fin n} {f : Matrix (Fin n) (Fin n) K} (hM : Sub M g h f) : SpRep M (f.submatrix g h) := by
  obtain ⟨S, h1, h2, h3, h4, h5⟩ := hM
  refine ⟨h1.nrow.trans h3, h1.ncol.trans h4, ?_⟩
  intro i j
  unfold SpVal
  rw [h1.val, h5]
  rfl

theorem vval_ofFn {m : Nat} (x : Fin m → K) (i : Fin m) : vval (List.ofFn x) ((i.1 + 1 : Nat) : Int) = x i := by
  unfold vval at1?
  rw [show ((i.1 + 1 : Nat) : Int) - 1 = (i.1 : Int) by push_cast; ring, at0?_natCast]
  simp

theorem list_ofFn {y : List K} {m : Nat} (h : y.length = m) : y = List.ofFn fun i : Fin m => vval y ((i.1 + 1 : Nat) : Int) := by
  subst h
  apply List.ext_getElem
  · simp
  · intro i h1 h2
    rw [List.getElem_ofFn]
    unfold vval at1?
    rw [show ((i + 1 : Nat) : Int) - 1 = (i : Int) by push_cast; ring, at0?_natCast]
    simp [h1]

theorem sum_icc {m : Nat} (f : Nat → K) : ∑ c ∈ Finset.Icc 1 m, f c = ∑ j : Fin m, f (j.1+1) := by
  rw [Fin.sum_univ_eq_sum_range (fun j => f (j+1)), Finset.range_eq_Ico, Finset.sum_Ico_add' f 0 m 1]
  rfl

theorem Sub.mul {M : Sparse K} {a b : Nat} {g : Fin a → Fin n} {h : Fin b → Fin n} {f : Matrix (Fin n) (Fin n) K} (hM : Sub M g h f) (x : Fin b → K) :
    M.multiply (List.ofFn x) = some (List.ofFn ((f.submatrix g h).mulVec x)) := by
  have hr := hM.rep
  obtain ⟨S, h1, h2, h3, h4, h5⟩ := hM
  obtain ⟨T, hT, -⟩ := h1.held
  obtain ⟨y, g1, g2, g3⟩ := multiply_spec hT (by rw [h1.mode, h2]; intro hx; cases hx) (List.ofFn x) (by rw [hr.cols]; simp)
  rw [g1, list_ofFn (g2.trans hr.rows)]
  congr 2
  funext i
  rw [g3, hr.cols, sum_icc]
  unfold Matrix.mulVec dotProduct
  apply Finset.sum_congr rfl
  intro j _
  rw [hr.ent, vval_ofFn]

theorem Sub.col {M : Sparse K} {a b : Nat} {g : Fin a → Fin n} {h : Fin b → Fin n} {f : Matrix (Fin n) (Fin n) K} (hM : Sub M g h f) (j : Fin b) :
    columnOf M (j.1+1) = List.ofFn fun i => f (g i) (h j) := by
  have hr := hM.rep
  obtain ⟨S, h1, h2, h3, h4, h5⟩ := hM
  obtain ⟨T, hT, -⟩ := h1.held
  have hl : M.editable ≠ .locked := by rw [h1.mode, h2]; intro hx; cases hx
  obtain ⟨e1, -⟩ := hT.edit hl
  have hval : ∀ i : Fin a, f (g i) (h j) = (VMap.find? T (i.1+1, j.1+1)).getD 0 := by
    intro i
    have := hr.ent i j
    unfold SpVal at this
    rw [get?_spec hT] at this
    exact this.symm
  have hz : ∀ i : Fin a, vval (List.replicate M.nrow (0 : K)) ((i.1+1 : Nat) : Int) = 0 := by
    intro i
    unfold vval at1?
    rw [show ((i.1 + 1 : Nat) : Int) - 1 = (i.1 : Int) by push_cast; ring, at0?_natCast, List.getElem?_replicate]
    split <;> rfl
  unfold columnOf Sparse.getColumn
  by_cases he : M.elem.isEmpty = true
  · rw [if_pos (.inl he)]
    rw [List.isEmpty_iff, e1] at he
    rw [Option.getD_none, list_ofFn (y := List.replicate M.nrow (0 : K)) (by rw [List.length_replicate, hr.rows])]
    congr 1
    funext i
    rw [hz, hval, he]
    rfl
  · rw [if_neg (by rw [hr.cols]; have := j.2; simp [he]), e1]
    obtain ⟨y, k1, k2, k3⟩ := colLoop (j.1+1) T (List.replicate M.nrow 0) hT.nodup (by
      intro p hp; have := hT.range p hp; rw [List.length_replicate]; omega)
    rw [k1, Option.getD_some, list_ofFn (y := y) (by rw [k2, List.length_replicate, hr.rows])]
    congr 1
    funext i
    rw [k3, hz, hval]

end IFEM.Supel
