import Verif.Lemmas.SupelParts
import Verif.Lemmas.BasisCache
import Verif.Props.Matrix
import Mathlib.LinearAlgebra.Matrix.NonsingularInverse
/-! Static condensation and recovery. -/
namespace IFEM.Supel
open IFEM.Spec IFEM.Props IFEM.Mat
variable {K : Type} [Field K] {n n1 n2 : Nat}

theorem foldlM_append {α β : Type} (f : α → Option (List β)) : ∀ (l : List α) (a : List β), l.foldlM (fun a n => (f n).map fun m => a ++ m) a = (l.mapM f).map fun L => a ++ L.flatten
  | [], a => by simp
  | x :: l, a => by
    rw [List.foldlM_cons, List.mapM_cons]
    cases hx : f x with
    | none => rfl
    | some m =>
      simp only [Option.map_some, Option.bind_eq_bind, Option.bind_some]
      rw [foldlM_append f l]
      cases l.mapM f with
      | none => rfl
      | some L => simp

theorem sort_eq {a b : List Int} (hp : a.Perm b) (hb : b.Pairwise (· ≤ ·)) : a.insertionSort (· ≤ ·) = b :=
  ((List.perm_insertionSort (· ≤ ·) a).trans hp).eq_of_pairwise (fun x y _ _ h1 h2 => le_antisymm h1 h2) (List.pairwise_insertionSort (· ≤ ·) a) hb

theorem retained_spec (s : Sam K) (nodes : List Int) (d : Division n n1 n2) (h : Retains s nodes d) :
    ∃ meq, retained s nodes = some meq ∧ (meq.any fun e => decide (e ≤ 0)) = false ∧ meq.insertionSort (· ≤ ·) = d.meqn2 := by
  obtain ⟨L, h1, h2⟩ := h
  have he : (List.ofFn fun k => ((d.ext k).1 : Int) + 1) = d.meqn2 := by
    unfold Division.meqn2 nums Division.E
    rw [List.map_ofFn]
    rfl
  rw [he] at h2
  refine ⟨L.flatten, ?_, ?_, ?_⟩
  · unfold retained
    rw [foldlM_append s.getNodeEqns nodes [], h1]
    rfl
  · rw [List.any_eq_false]
    intro e hm
    have := h2.mem_iff.1 hm
    unfold Division.meqn2 nums at this
    rw [List.mem_map] at this
    obtain ⟨p, -, rfl⟩ := this
    simp
  · apply sort_eq h2
    unfold Division.meqn2 nums Division.E
    rw [List.map_ofFn, List.pairwise_ofFn]
    intro i j hij
    have := d.ext_mono hij
    simp only [Function.comp_apply]
    have h3 : (d.ext i).1 < (d.ext j).1 := this
    omega

theorem subV_ofFn {m : Nat} (a b : Fin m → K) : subV (List.ofFn a) (List.ofFn b) = List.ofFn (a - b) := by
  unfold subV
  apply List.ext_getElem
  · simp
  · intro i h1 h2
    simp

/-- The columns of a matrix, one after the other. -/
theorem rep_cols {r c : Nat} (f : Fin c → Fin r → K) : Rep (⟨r, c, (List.ofFn fun j => List.ofFn (f j)).flatMap id⟩ : Mat K) (Matrix.of fun i j => f j i) := by
  have h2 : ∀ l : List (List K), (∀ v ∈ l, v.length = r) → (l.flatMap id).length = l.length * r ∧ ∀ (j x : Nat) (v : List K), l[j]? = some v → x < r → (l.flatMap id)[j * r + x]? = v[x]? := by
    intro l
    induction l with
    | nil => intro _; simp
    | cons w l ih =>
      intro hl
      have hw := hl w List.mem_cons_self
      obtain ⟨i1, i2⟩ := ih fun v hv => hl v (List.mem_cons_of_mem _ hv)
      constructor
      · rw [List.flatMap_cons, List.length_append, i1, List.length_cons]
        simp only [id]
        rw [hw]; ring
      · intro j x v hj hx
        rw [List.flatMap_cons]
        simp only [id]
        cases j with
        | zero =>
          simp at hj; subst hj
          rw [List.getElem?_append_left (by omega)]
          simp
        | succ j =>
          simp at hj
          rw [List.getElem?_append_right (by rw [hw]; nlinarith), hw, show (j+1) * r + x - r = j * r + x by rw [Nat.succ_mul]; omega]
          exact i2 j x v hj hx
  obtain ⟨h3, h4⟩ := h2 (List.ofFn fun j => List.ofFn (f j)) (by
    intro v hv
    rw [List.mem_ofFn] at hv
    obtain ⟨j, rfl⟩ := hv
    simp)
  refine ⟨rfl, rfl, ?_, ?_⟩
  · dsimp only
    rw [h3]; simp [Nat.mul_comm]
  · intro i j
    dsimp only
    have := h4 j.1 i.1 (List.ofFn (f j)) (by simp) i.2
    rw [show i.1 + r * j.1 = j.1 * r + i.1 by ring, this]
    simp

/-- Sums over all equations are sums over the internal and over the retained ones. -/
theorem _root_.IFEM.Spec.Division.sum (d : Division n n1 n2) (f : Fin n → K) : ∑ j, f j = ∑ a, f (d.int a) + ∑ b, f (d.ext b) := by
  have h := Fintype.sum_sum_type (fun x => f (Sum.elim d.int d.ext x))
  rw [Fintype.sum_bijective _ d.all (fun x => f (Sum.elim d.int d.ext x)) f fun _ => rfl] at h
  exact h

theorem _root_.IFEM.Spec.Division.mulVec (d : Division n n1 n2) (A : Matrix (Fin n) (Fin n) K) (x : Fin n → K) {m : Nat} (g : Fin m → Fin n) (k : Fin m) :
    A.mulVec x (g k) = (A.submatrix g d.int).mulVec (x ∘ d.int) k + (A.submatrix g d.ext).mulVec (x ∘ d.ext) k := by
  unfold Matrix.mulVec dotProduct
  rw [d.sum]
  rfl

/-- What the condensation computes: `x1` solves for the internal load, and the columns of `X` for the couplings. -/
theorem condense_spec (solve : Sparse K → List K → Option (List K)) (s : Sam K) (A : Sparse K) (A' : Matrix (Fin n) (Fin n) K) (T : VMap K) (hT : Holds A T) (hl : A.editable ≠ .locked)
    (he : A.elem ≠ []) (hA : SpRep A A') (d : Division n n1 n2) (nodes : List Int) (hN : Retains s nodes d) (h1 : 0 < n1) (h2 : 0 < n2) (hlast : ∃ k, (d.ext k).1 + 1 = n)
    (hs : SolvesFor solve (A'.submatrix d.int d.int)) (R : Fin n → K) :
    ∃ (red : Reduced K) (x1 : Fin n1 → K) (X : Matrix (Fin n1) (Fin n2) K), condense solve s A (List.ofFn R) nodes = some (some red) ∧
      (A'.submatrix d.int d.int).mulVec x1 = R ∘ d.int ∧ A'.submatrix d.int d.int * X = A'.submatrix d.int d.ext ∧
      Rep red.A (A'.submatrix d.ext d.ext - A'.submatrix d.ext d.int * X) ∧ red.b = List.ofFn (R ∘ d.ext - (A'.submatrix d.ext d.int).mulVec x1) ∧
      Rep red.R (Matrix.of fun (i : Fin n1) (j : Fin (n2+1)) => (Fin.cons (x1 i) (fun c => - X i c) : Fin (n2+1) → K) j) := by
  obtain ⟨meq, m1, m2, m3⟩ := retained_spec s nodes d hN
  obtain ⟨S, s1, s2⟩ := split_spec d A A' T hT hl he hA h1 h2
  have hr11 := s2.p11.rep
  have hr21 := s2.p21.rep
  have hE : d.E.length = n2 := by unfold Division.E; simp
  have hI : d.I.length = n1 := by unfold Division.I; simp
  have hv := vecLoop_spec d.meqn2 (List.ofFn R) n1 n2 d.shuf 0 [] [] rfl (by
    intro _
    obtain ⟨k, hk⟩ := hlast
    unfold Division.E
    rw [List.mem_ofFn]
    exact ⟨k, by omega⟩) (by simp) (by simp [hI]) (by simp [hE])
  rw [List.nil_append, List.nil_append] at hv
  have e1 : d.I.map (fun p => (List.ofFn R).getD p 0) = List.ofFn (R ∘ d.int) := by
    unfold Division.I
    rw [List.map_ofFn]
    congr 1
    funext a
    simp [List.getD_eq_getElem?_getD]
  have e2 : d.E.map (fun p => (List.ofFn R).getD p 0) = List.ofFn (R ∘ d.ext) := by
    unfold Division.E
    rw [List.map_ofFn]
    congr 1
    funext a
    simp [List.getD_eq_getElem?_getD]
  rw [e1, e2] at hv
  obtain ⟨x1, g1, g2⟩ := hs S.a11 hr11 (R ∘ d.int)
  choose Xc hX1 hX2 using fun c : Fin n2 => hs S.a11 hr11 (fun i => A' (d.int i) (d.ext c))
  have hcol : ∀ c : Fin n2, condenseCol solve S (c.1+1) = some (List.ofFn ((fun i => A' (d.ext i) (d.ext c)) - (A'.submatrix d.ext d.int).mulVec (Xc c)), List.ofFn fun i => - Xc c i) := by
    intro c
    unfold condenseCol
    rw [s2.p12.col c, hX1 c]
    dsimp only
    rw [s2.p21.mul, s2.p22.col c]
    dsimp only
    rw [subV_ofFn, List.map_ofFn]
    congr 2
    congr 1
    funext i
    simp
  have hcols : (List.range S.a21.nrow).mapM (fun c => condenseCol solve S (c+1)) =
      some (List.ofFn fun c : Fin n2 => (List.ofFn ((fun i => A' (d.ext i) (d.ext c)) - (A'.submatrix d.ext d.int).mulVec (Xc c)), List.ofFn fun i => - Xc c i)) := by
    rw [hr21.rows]
    have hrange : List.range n2 = List.ofFn fun c : Fin n2 => c.1 := by
      apply List.ext_getElem <;> simp
    rw [hrange]
    have := mapM_some' (f := fun c : Fin n2 => condenseCol solve S (c.1+1)) (g := fun c : Fin n2 => (List.ofFn ((fun i => A' (d.ext i) (d.ext c)) - (A'.submatrix d.ext d.int).mulVec (Xc c)), List.ofFn fun i => - Xc c i))
      (List.finRange n2) (fun c _ => hcol c)
    rw [show List.ofFn (fun c : Fin n2 => c.1) = (List.finRange n2).map fun c => c.1 by rw [List.ofFn_eq_map], List.mapM_map]
    rw [List.ofFn_eq_map]
    exact this
  refine ⟨⟨⟨n2, n2, (List.ofFn fun c : Fin n2 => List.ofFn ((fun i => A' (d.ext i) (d.ext c)) - (A'.submatrix d.ext d.int).mulVec (Xc c))).flatMap id⟩,
    List.ofFn (R ∘ d.ext - (A'.submatrix d.ext d.int).mulVec x1), ⟨n1, 1 + n2, (List.ofFn x1 :: (List.ofFn fun c : Fin n2 => List.ofFn fun i => - Xc c i)).flatMap id⟩⟩, x1, Matrix.of fun i c => Xc c i, ?_, g2, ?_, ?_, rfl, ?_⟩
  · unfold condense
    rw [m1]
    dsimp only
    rw [if_neg (by rw [m2]; simp), m3, s1]
    dsimp only
    rw [hr11.rows, hr21.rows, hA.rows, hv]
    dsimp only
    rw [g1]
    dsimp only
    rw [s2.p21.mul]
    dsimp only
    rw [hr21.rows] at hcols
    rw [hcols]
    dsimp only
    rw [subV_ofFn, List.map_ofFn, List.map_ofFn]
    rfl
  · ext i c
    have := congrFun (hX2 c) i
    rw [Matrix.mul_apply]
    unfold Matrix.mulVec dotProduct at this
    exact this
  · have := rep_cols (fun (c : Fin n2) => (fun i => A' (d.ext i) (d.ext c)) - (A'.submatrix d.ext d.int).mulVec (Xc c))
    convert this using 1
    ext i c
    simp [Matrix.mul_apply, Matrix.mulVec, dotProduct]
  · have := rep_cols (r := n1) (c := n2+1) (fun j i => (Fin.cons (x1 i) (fun c => - Xc c i) : Fin (n2+1) → K) j)
    rw [List.ofFn_succ] at this
    rw [Nat.add_comm 1 n2]
    exact this

/-- What the recovery computes. -/
theorem recover_spec (s : Sam K) (d : Division n n1 n2) (nodes : List Int) (hN : Retains s nodes d) (h1 : 0 < n1) (hlast : ∃ k, (d.ext k).1 + 1 = n) (hneq : s.neq = n)
    (Rm : Mat K) (x1 : Fin n1 → K) (X : Matrix (Fin n1) (Fin n2) K) (hR : Rep Rm (Matrix.of fun (i : Fin n1) (j : Fin (n2+1)) => (Fin.cons (x1 i) (fun c => - X i c) : Fin (n2+1) → K) j))
    (xe : Fin n2 → K) : ∃ x : Fin n → K, recoverVector s Rm nodes (List.ofFn xe) = some (some (List.ofFn x)) ∧ x ∘ d.ext = xe ∧ x ∘ d.int = x1 - X.mulVec xe := by
  obtain ⟨meq, m1, m2, m3⟩ := retained_spec s nodes d hN
  have hE : d.E.length = n2 := by unfold Division.E; simp
  have hI : d.I.length = n1 := by unfold Division.I; simp
  have hc := d.count
  have hmul := (C60_mulVec (t := false) (by unfold RepOp; rw [if_neg (by simp)]; exact hR) h1 (by omega) (Fin.cons 1 xe : Fin (n2+1) → K)).1 []
  have hvec : (Matrix.of fun (i : Fin n1) (j : Fin (n2+1)) => (Fin.cons (x1 i) (fun c => - X i c) : Fin (n2+1) → K) j).mulVec (Fin.cons 1 xe : Fin (n2+1) → K) = x1 - X.mulVec xe := by
    funext i
    unfold Matrix.mulVec dotProduct
    rw [Fin.sum_univ_succ]
    simp only [Matrix.of_apply, Fin.cons_zero, Fin.cons_succ, Pi.sub_apply, Matrix.mulVec, dotProduct]
    simp only [neg_mul, Finset.sum_neg_distrib]
    ring
  rw [hvec, List.ofFn_succ] at hmul
  simp only [Fin.cons_zero, Fin.cons_succ] at hmul
  obtain ⟨x, g1, g2, g3, g4⟩ := mergeLoop_spec d.meqn2 (List.ofFn (x1 - X.mulVec xe)) (List.ofFn xe) d.shuf 0 0 0 rfl (by
    intro _
    obtain ⟨k, hk⟩ := hlast
    unfold Division.E
    rw [List.mem_ofFn]
    exact ⟨k, by omega⟩) (by simp [hI]) (by simp [hE])
  have hlen : d.meqn2.length = n2 := by unfold Division.meqn2 nums; simp [hE]
  have hat : ∀ p : Fin n, vval x ((p.1+1 : Nat) : Int) = (x[p.1]?).getD 0 := by
    intro p
    unfold vval at1?
    rw [show ((p.1 + 1 : Nat) : Int) - 1 = (p.1 : Int) by push_cast; ring, at0?_natCast]
  refine ⟨fun p => vval x ((p.1+1 : Nat) : Int), ?_, ?_, ?_⟩
  · unfold recoverVector
    rw [hmul]
    dsimp only
    rw [m1]
    dsimp only
    rw [m3, hlen, List.length_ofFn, List.length_ofFn, hneq, if_neg (by omega), g1, ← list_ofFn g2]
    rfl
  · funext b
    have := g4 b.1 _ (d.E_get b)
    simp only [Function.comp_apply]
    rw [hat]
    simp only [Nat.sub_zero, Nat.zero_add] at this
    rw [this]
    simp
  · funext a
    have := g3 a.1 _ (d.I_get a)
    simp only [Function.comp_apply]
    rw [hat]
    simp only [Nat.sub_zero, Nat.zero_add] at this
    rw [this]
    simp

end IFEM.Supel
