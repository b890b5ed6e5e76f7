import Mathlib.Data.List.Basic

/-!
# Structured domain decomposition

Models the visiting order of the nodes or elements of a connection (`DomainDecomposition::OrientIterator`) of structured patches, and the division of a structured patch into
subdomains (`calcSubdomains`), both in `src/ASM/DomainDecomposition.C`.
-/
namespace IFEM.DomGeom

/-- The table of first index and step for row `n` of a face (DomainDecomposition.C:87-95 and 148-156).  A subscript out of range of the table gives `none`. -/
def orderStart (orient : Nat) (dim1 dim2 n : Int) : Option (Int × Int) :=
  match orient with
  | 0 => some (n*dim1, 1)
  | 1 => some ((dim2-n-1)*dim1, 1)
  | 2 => some ((n+1)*dim1-1, -1)
  | 3 => some (dim1*dim2-n*dim1-1, -1)
  | 4 => some (n, dim1)
  | 5 => some (dim2-n-1, dim1)
  | 6 => some ((dim2-1)*dim1+n, -dim1)
  | 7 => some (dim2*dim1-n-1, -dim1)
  | _ => none

/-- The inner loop (DomainDecomposition.C:101-102 and 162-163): `dim1` values with the given step. -/
def orderRow (step : Int) : Int → Nat → List Int
  | _, 0 => []
  | first, k+1 => first :: orderRow step (first+step) k

/-- The visiting order of a face with `dim1 x dim2` nodes or elements (DomainDecomposition.C:98-103 and 159-164). -/
def faceOrder (orient dim1 dim2 : Nat) : Option (List Int) :=
  ((List.range dim2).mapM fun n : Nat => (orderStart orient dim1 dim2 n).map fun x => orderRow x.2 x.1 dim1).map List.flatten

/-- The sizes of a face: `dim1`, `dim2` (DomainDecomposition.C:77-83 and 137-143); `n1`, `n2`, `n3` are the numbers of nodes or elements of the patch. -/
def orderDims (n1 n2 n3 lIdx : Nat) : Nat × Nat :=
  if lIdx = 1 ∨ lIdx = 2 then (n2, n3) else if lIdx = 3 ∨ lIdx = 4 then (n1, n3) else (n1, n2)

/-- `OrientIterator` for the faces of a structured volume patch (DomainDecomposition.C:40-104 with `nsd == 3`, `dim == 2`, and 119-165 with `nsd == 3`). -/
def orientIterator3 (n1 n2 n3 orient lIdx : Nat) : Option (List Int) :=
  faceOrder orient (orderDims n1 n2 n3 lIdx).1 (orderDims n1 n2 n3 lIdx).2

/-- `OrientIterator` for the edges of a structured surface patch (DomainDecomposition.C:105-115 and 166-180). -/
def orientIterator2 (n1 n2 orient lIdx : Nat) : List Int :=
  let n := if lIdx = 1 ∨ lIdx = 2 then n2 else n1
  if orient = 0 then (List.range n).map fun i : Nat => (i : Int) else ((List.range n).map fun i : Nat => (i : Int)).reverse

/-! ### Subdomains -/

/-- The modulus of `size_t`. -/
def W : Nat := 2^64

/-- Difference of two numbers of type `size_t`. -/
def sub64 (a b : Nat) : Nat := (a + (W - b % W)) % W

/-- `std::vector<int>::reserve(n)` throws an exception if `n` exceeds this number. -/
def maxSize : Nat := 2^61-1

/-- The loop `for (size_t i = 0; i < sub && ofs + i < nel; ++i)`: the values of `ofs + i`, in the order of the loop. -/
def runLoop (sub ofs nel : Nat) : List Nat := ((List.range sub).map fun i => (ofs + i) % W).takeWhile fun x => decide (x < nel)

/-- The state of a loop over the parts in one direction: the number of elements, the offset, and the subdomains so far. -/
structure Dir where
  sub : Nat
  ofs : Nat
  doms : List (List Nat)

/-- One step of the loop over the parts in the first direction (DomainDecomposition.C:392-403).  The loops of the further directions have the values `js`; the last two arguments
of `reserve` are given by `rsv`.  The element numbers have type `size_t` here; the conversion to `int` is left out. -/
def step1 (nel1 g1 ov rsv : Nat) (js : List Nat) (s : Dir) (gu : Nat) : Option Dir :=
  let sub := if gu = g1-1 then sub64 nel1 s.ofs else s.sub
  if sub*rsv % W > maxSize then none
  else some ⟨sub, (s.ofs + sub64 sub ov) % W, s.doms ++ [js.flatMap fun j => (runLoop sub s.ofs nel1).map fun i => j*nel1 + i]⟩

/-- The loop over the parts in the first direction (DomainDecomposition.C:390-403).  `floor(double(nel1)/g1 + 1)` is evaluated exactly. -/
def loop1 (nel1 g1 ov rsv : Nat) (js : List Nat) (doms : List (List Nat)) : Option Dir :=
  (List.range g1).foldlM (fun (s : Dir) (gu : Nat) => step1 nel1 g1 ov rsv js s gu) ⟨nel1/g1+1, 0, doms⟩

/-- `DomainDecomposition::calcSubdomains1D` (DomainDecomposition.C:338-364). -/
def calcSubdomains1D (nel1 g1 ov : Nat) : Option (List (List Nat)) :=
  if g1 = 1 then some [List.range nel1] else (loop1 nel1 g1 ov 1 [0] []).map Dir.doms

/-- One step of the loop over the parts in the second direction (DomainDecomposition.C:387-405). -/
def step2 (nel1 nel2 g1 g2 ov rsv : Nat) (ks : List Nat) (s : Dir) (gv : Nat) : Option Dir :=
  let sub := if gv = g2-1 then sub64 nel2 s.ofs else s.sub
  (loop1 nel1 g1 ov (sub*rsv) (ks.flatMap fun k => (runLoop sub s.ofs nel2).map fun j => k*nel2 + j) s.doms).map fun s1 =>
    ⟨sub, (s.ofs + sub64 sub ov) % W, s1.doms⟩

/-- The loop over the parts in the second direction (DomainDecomposition.C:383-405). -/
def loop2 (nel1 nel2 g1 g2 ov rsv : Nat) (ks : List Nat) (doms : List (List Nat)) : Option Dir :=
  (List.range g2).foldlM (fun (s : Dir) (gv : Nat) => step2 nel1 nel2 g1 g2 ov rsv ks s gv) ⟨nel2/g2+1, 0, doms⟩

/-- `DomainDecomposition::calcSubdomains2D` (DomainDecomposition.C:368-409). -/
def calcSubdomains2D (nel1 nel2 g1 g2 ov : Nat) : Option (List (List Nat)) :=
  if g1*g2 = 1 then some [List.range (nel1*nel2)] else (loop2 nel1 nel2 g1 g2 ov 1 [0] []).map Dir.doms

/-- One step of the loop over the parts in the third direction (DomainDecomposition.C:427-449). -/
def step3 (nel1 nel2 nel3 g1 g2 g3 ov : Nat) (s : Dir) (gw : Nat) : Option Dir :=
  let sub := if gw = g3-1 then sub64 nel3 s.ofs else s.sub
  (loop2 nel1 nel2 g1 g2 ov sub (runLoop sub s.ofs nel3) s.doms).map fun s2 => ⟨sub, (s.ofs + sub64 sub ov) % W, s2.doms⟩

/-- `DomainDecomposition::calcSubdomains3D` (DomainDecomposition.C:409-455). -/
def calcSubdomains3D (nel1 nel2 nel3 g1 g2 g3 ov : Nat) : Option (List (List Nat)) :=
  if g1*g2*g3 = 1 then some [List.range (nel1*nel2*nel3)]
  else ((List.range g3).foldlM (fun (s : Dir) (gw : Nat) => step3 nel1 nel2 nel3 g1 g2 g3 ov s gw) ⟨nel3/g3+1, 0, []⟩).map Dir.doms

/-- `DomainDecomposition::calcSubdomains` (DomainDecomposition.C:324-334). -/
def calcSubdomains (nel1 nel2 nel3 g1 g2 g3 ov : Nat) : Option (List (List Nat)) :=
  if nel3 > 0 then calcSubdomains3D nel1 nel2 nel3 g1 g2 g3 ov
  else if nel2 > 0 then calcSubdomains2D nel1 nel2 g1 g2 ov
  else calcSubdomains1D nel1 g1 ov

end IFEM.DomGeom
