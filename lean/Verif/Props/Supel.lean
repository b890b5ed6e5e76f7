import Verif.Lemmas.SupelCondense
/-!
# Property C82: superelements

Static condensation of a substructure to its retained equations, and recovery of the internal ones.
-/
namespace IFEM.Props
open IFEM.Spec IFEM.Supel
variable {K : Type} [Field K] {n n1 n2 : Nat}

/-- **C82** (splitting).  A square matrix that is not compressed and has at least one entry is split into the four sub-matrices of internal and retained equations, if there are equations of both kinds. -/
theorem C82_split (sv : SparseSolver) (ops : List (SpOp K)) (A' : Matrix (Fin n) (Fin n) K) (d : Division n n1 n2) (h1 : 0 < n1) (h2 : 0 < n2) :
    let A := runOps ({ nrow := n, ncol := n, solver := sv } : Sparse K) ops
    A.editable ≠ .locked → A.size ≠ 0 → SpRep A A' →
    ∃ S, split A (List.ofFn fun k => ((d.ext k).1 : Int) + 1) = some (some S) ∧ SpRep S.a11 (A'.submatrix d.int d.int) ∧ SpRep S.a21 (A'.submatrix d.ext d.int) ∧
      SpRep S.a12 (A'.submatrix d.int d.ext) ∧ SpRep S.a22 (A'.submatrix d.ext d.ext) := by
  intro A hl hne hA
  obtain ⟨h, -⟩ := runOps_impl sv ops _ _ (impl_empty (R := K) n n sv) rfl
  obtain ⟨T, hT, -⟩ := h.held
  have he : A.elem ≠ [] := by
    unfold Sparse.size at hne
    rw [if_neg hl] at hne
    intro h; rw [h] at hne; exact hne rfl
  obtain ⟨S, g1, g2⟩ := split_spec d A A' T hT hl he hA h1 h2
  have hm : (List.ofFn fun k => ((d.ext k).1 : Int) + 1) = d.meqn2 := by
    unfold Division.meqn2 nums Division.E
    rw [List.map_ofFn]
    rfl
  rw [hm]
  exact ⟨S, g1, g2.p11.rep, g2.p21.rep, g2.p12.rep, g2.p22.rep⟩

/-- **C82** (condensation).  If the retained equations are free, distinct, include the last equation and leave at least one internal one, and the solver works for the matrix of the internal equations, then the condensation
succeeds; and for every vector of retained values the recovered vector contains these values, satisfies all internal equations of the full system, and its residuals in the retained equations are the residuals of the reduced system.
It is the only vector with these retained values that satisfies the internal equations. -/
theorem C82_condensation (sv : SparseSolver) (ops : List (SpOp K)) (A' : Matrix (Fin n) (Fin n) K) (d : Division n n1 n2) (s : Sam K) (nodes : List Int) (solve : Sparse K → List K → Option (List K)) (R : Fin n → K)
    (hN : Retains s nodes d) (h1 : 0 < n1) (hlast : ∃ k, (d.ext k).1 + 1 = n) (hneq : s.neq = n) (hs : SolvesFor solve (A'.submatrix d.int d.int)) :
    let A := runOps ({ nrow := n, ncol := n, solver := sv } : Sparse K) ops
    A.editable ≠ .locked → A.size ≠ 0 → SpRep A A' →
    ∃ (red : Reduced K) (Ar : Matrix (Fin n2) (Fin n2) K) (br : Fin n2 → K), condense solve s A (List.ofFn R) nodes = some (some red) ∧ Rep red.A Ar ∧ red.b = List.ofFn br ∧
      (A'.transpose = A' → Ar.transpose = Ar) ∧
      ∀ xe : Fin n2 → K, ∃ x : Fin n → K, recoverVector s red.R nodes (List.ofFn xe) = some (some (List.ofFn x)) ∧ (∀ k, x (d.ext k) = xe k) ∧ (∀ k, A'.mulVec x (d.int k) = R (d.int k)) ∧
        (∀ k, A'.mulVec x (d.ext k) - R (d.ext k) = Ar.mulVec xe k - br k) ∧
        ∀ y : Fin n → K, (∀ k, y (d.ext k) = xe k) → (∀ k, A'.mulVec y (d.int k) = R (d.int k)) → y = x := by
  intro A hl hne hA
  obtain ⟨h, -⟩ := runOps_impl sv ops _ _ (impl_empty (R := K) n n sv) rfl
  obtain ⟨T, hT, -⟩ := h.held
  have he : A.elem ≠ [] := by
    unfold Sparse.size at hne
    rw [if_neg hl] at hne
    intro h; rw [h] at hne; exact hne rfl
  have h2 : 0 < n2 := by obtain ⟨k, -⟩ := hlast; exact k.pos
  obtain ⟨red, x1, X, g1, g2, g3, g4, g5, g6⟩ := condense_spec solve s A A' T hT hl he hA d nodes hN h1 h2 hlast hs R
  refine ⟨red, _, _, g1, g4, g5, ?_, ?_⟩
  · intro hsym
    have hblk : ∀ {a b : Nat} (p : Fin a → Fin n) (q : Fin b → Fin n), (A'.submatrix p q).transpose = A'.submatrix q p := by
      intro a b p q
      rw [Matrix.transpose_submatrix, hsym]
    rw [Matrix.transpose_sub, hblk]
    congr 1
    rw [← hblk d.int d.ext, ← g3, Matrix.transpose_mul, Matrix.transpose_mul, Matrix.transpose_mul, Matrix.transpose_transpose, hblk d.int d.int, Matrix.mul_assoc, Matrix.transpose_transpose]
  intro xe
  obtain ⟨x, k1, k2, k3⟩ := recover_spec s d nodes hN h1 hlast hneq red.R x1 X g6 xe
  refine ⟨x, k1, congrFun k2, ?_, ?_, ?_⟩
  · intro k
    rw [d.mulVec A' x d.int k, k2, k3, Matrix.mulVec_sub, g2, Matrix.mulVec_mulVec, g3]
    simp
  · intro k
    rw [d.mulVec A' x d.ext k, k2, k3, Matrix.mulVec_sub, Matrix.mulVec_mulVec, Matrix.sub_mulVec]
    simp only [Pi.sub_apply, Function.comp_apply]
    ring
  · intro y y1 y2
    have hsurj : Function.Surjective (A'.submatrix d.int d.int).mulVec := by
      intro b
      obtain ⟨S, -, s2⟩ := split_spec d A A' T hT hl he hA h1 h2
      obtain ⟨z, -, hz⟩ := hs S.a11 s2.p11.rep b
      exact ⟨z, hz⟩
    have hinj := Matrix.mulVec_injective_iff_isUnit.2 (Matrix.mulVec_surjective_iff_isUnit.1 hsurj)
    have hye : y ∘ d.ext = x ∘ d.ext := by rw [k2]; exact funext y1
    have hyi : y ∘ d.int = x ∘ d.int := by
      apply hinj
      funext k
      have e1 := y2 k
      have e2 : A'.mulVec x (d.int k) = R (d.int k) := by
        rw [d.mulVec A' x d.int k, k2, k3, Matrix.mulVec_sub, g2, Matrix.mulVec_mulVec, g3]
        simp
      rw [d.mulVec A' y d.int k, hye] at e1
      rw [d.mulVec A' x d.int k] at e2
      exact add_right_cancel (e1.trans e2.symm)
    funext p
    rcases d.cases p with ⟨a, rfl⟩ | ⟨b, rfl⟩
    · exact congrFun hyi a
    · exact congrFun hye b

/-- **C82** (equivalence).  The solutions of the full system are exactly the vectors recovered from the solutions of the reduced system. -/
theorem C82_equivalence (sv : SparseSolver) (ops : List (SpOp K)) (A' : Matrix (Fin n) (Fin n) K) (d : Division n n1 n2) (s : Sam K) (nodes : List Int) (solve : Sparse K → List K → Option (List K)) (R : Fin n → K)
    (hN : Retains s nodes d) (h1 : 0 < n1) (hlast : ∃ k, (d.ext k).1 + 1 = n) (hneq : s.neq = n) (hs : SolvesFor solve (A'.submatrix d.int d.int)) :
    let A := runOps ({ nrow := n, ncol := n, solver := sv } : Sparse K) ops
    A.editable ≠ .locked → A.size ≠ 0 → SpRep A A' →
    ∃ (red : Reduced K) (Ar : Matrix (Fin n2) (Fin n2) K) (br : Fin n2 → K), condense solve s A (List.ofFn R) nodes = some (some red) ∧ Rep red.A Ar ∧ red.b = List.ofFn br ∧
      ∀ y : Fin n → K, A'.mulVec y = R ↔ ∃ xe, Ar.mulVec xe = br ∧ recoverVector s red.R nodes (List.ofFn xe) = some (some (List.ofFn y)) := by
  intro A hl hne hA
  obtain ⟨red, Ar, br, g1, g2, g3, -, g5⟩ := C82_condensation sv ops A' d s nodes solve R hN h1 hlast hneq hs hl hne hA
  refine ⟨red, Ar, br, g1, g2, g3, ?_⟩
  intro y
  constructor
  · intro hy
    obtain ⟨x, k1, k2, k3, k4, k5⟩ := g5 (y ∘ d.ext)
    have hyx := k5 y (fun k => rfl) (fun k => by rw [hy])
    refine ⟨y ∘ d.ext, ?_, by rw [hyx] at k1 ⊢; exact k1⟩
    funext k
    have := k4 k
    rw [← hyx, hy] at this
    exact (sub_eq_zero.1 (this.symm.trans (sub_self _)))
  · rintro ⟨xe, hx, hr⟩
    obtain ⟨x, k1, k2, k3, k4, k5⟩ := g5 xe
    rw [k1] at hr
    simp only [Option.some.injEq] at hr
    have := List.ofFn_injective hr
    subst this
    funext p
    rcases d.cases p with ⟨a, rfl⟩ | ⟨b, rfl⟩
    · exact k3 a
    · have := k4 b
      rw [hx, sub_self] at this
      exact sub_eq_zero.1 this

/-- **C82** (refusal).  If a retained node has a specified DOF, or the equations are not split into two non-empty groups, or the solver fails for the matrix of the internal equations, the condensation reports failure. -/
theorem C82_refused (solve : Sparse K → List K → Option (List K)) (s : Sam K) (A : Sparse K) (R : List K) (nodes : List Int) :
    (nodes.mapM s.getNodeEqns = none → condense solve s A R nodes = some none) ∧
    ∀ L, nodes.mapM s.getNodeEqns = some L → ((∃ e ∈ L.flatten, e ≤ 0) ∨ L.flatten.length = 0 ∨ A.nrow ≤ L.flatten.length ∨ A.nrow ≠ A.ncol) → condense solve s A R nodes = some none := by
  have hret : retained s nodes = (nodes.mapM s.getNodeEqns).map fun L => L.flatten := by
    unfold retained
    rw [foldlM_append s.getNodeEqns nodes []]
    simp
  refine ⟨?_, ?_⟩
  · intro h
    unfold condense
    rw [hret, h]
    rfl
  · intro L h hx
    unfold condense
    rw [hret, h]
    dsimp only [Option.map_some]
    by_cases ha : (L.flatten.any fun e => decide (e ≤ 0)) = true
    · rw [if_pos ha]
    · rw [if_neg ha]
      have hs : split A (L.flatten.insertionSort (· ≤ ·)) = some none := by
        unfold split
        by_cases hn : A.elem.isEmpty = true ∨ A.nrow ≠ A.ncol
        · rw [if_pos hn]
        · rw [if_neg hn]
          dsimp only
          rw [List.length_insertionSort, if_pos]
          rcases hx with ⟨e, he, h0⟩ | h0 | h0 | h0
          · exact absurd (List.any_eq_true.2 ⟨e, he, by simpa using h0⟩) ha
          · omega
          · omega
          · exact absurd (.inr h0) hn
      rw [hs]

/-- **C82** (finding F154).  If the last equation is not retained, the loop that splits the right-hand side reads past the end of the list of retained equations. -/
theorem C82_last_internal (sv : SparseSolver) (ops : List (SpOp K)) (A' : Matrix (Fin n) (Fin n) K) (d : Division n n1 n2) (s : Sam K) (nodes : List Int) (solve : Sparse K → List K → Option (List K)) (R : List K)
    (hN : Retains s nodes d) (h1 : 0 < n1) (h2 : 0 < n2) (hlast : ∃ k, (d.int k).1 + 1 = n) :
    let A := runOps ({ nrow := n, ncol := n, solver := sv } : Sparse K) ops
    A.editable ≠ .locked → A.size ≠ 0 → SpRep A A' → condense solve s A R nodes = none := by
  intro A hl hne hA
  obtain ⟨h, -⟩ := runOps_impl sv ops _ _ (impl_empty (R := K) n n sv) rfl
  obtain ⟨T, hT, -⟩ := h.held
  have he : A.elem ≠ [] := by
    unfold Sparse.size at hne
    rw [if_neg hl] at hne
    intro h; rw [h] at hne; exact hne rfl
  obtain ⟨S, g1, g2⟩ := split_spec d A A' T hT hl he hA h1 h2
  obtain ⟨meq, m1, m2, m3⟩ := retained_spec s nodes d hN
  unfold condense
  rw [m1]
  dsimp only
  rw [if_neg (by rw [m2]; simp), m3, g1]
  dsimp only
  rw [hA.rows, vecLoop_fails d.meqn2 R _ _ d.shuf 0 [] [] rfl (by have := d.count; omega)]
  obtain ⟨k, hk⟩ := hlast
  unfold Division.E
  rw [List.mem_ofFn]
  rintro ⟨b, hb⟩
  exact d.disj k b (Fin.ext (by omega))

/-- **C82** (finding F154, recovery).  In the same situation the recovery reads past the end of the list, whatever the vector of retained values. -/
theorem C82_last_internal_recovery (d : Division n n1 n2) (s : Sam K) (nodes : List Int) (Rm : Mat K) (xe : List K) (hN : Retains s nodes d) (hneq : s.neq = n) (h1 : 0 < n1) (hlast : ∃ k, (d.int k).1 + 1 = n)
    (Rm' : Matrix (Fin n1) (Fin (n2+1)) K) (hR : Rep Rm Rm') (hx : xe.length = n2) : recoverVector s Rm nodes xe = none := by
  obtain ⟨meq, m1, m2, m3⟩ := retained_spec s nodes d hN
  have hc := d.count
  obtain ⟨f, hf⟩ : ∃ f : Fin (n2+1) → K, (1 :: xe) = List.ofFn f := by
    refine ⟨fun j => vval (1 :: xe) ((j.1 + 1 : Nat) : Int), list_ofFn (by simp [hx])⟩
  have hmul := (C60_mulVec (t := false) (by unfold RepOp; rw [if_neg (by simp)]; exact hR) h1 (by omega) f).1 []
  have hlen : d.meqn2.length = n2 := by unfold Division.meqn2 nums Division.E; simp
  unfold recoverVector
  rw [hf, hmul]
  dsimp only
  rw [m1]
  dsimp only
  rw [m3, hlen, List.length_ofFn, hneq, hx, if_neg (by omega), mergeLoop_fails d.meqn2 _ _ d.shuf 0 0 0 rfl (by omega)]
  · rfl
  · obtain ⟨k, hk⟩ := hlast
    unfold Division.E
    rw [List.mem_ofFn]
    rintro ⟨b, hb⟩
    exact d.disj k b (Fin.ext (by omega))

end IFEM.Props
