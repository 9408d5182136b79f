import Verif.Blkop.Model
import Verif.Linop.Program

/-!
# Specification side for block operators: block matrices
-/

namespace Verif.Blkop
open Verif.Linop

/-- Position of the global index `k` in consecutive segments of the given sizes: (segment, offset in it). -/
def locate : List Nat → Nat → Nat × Nat
  | [], k => (0, k)
  | n :: ns, k => if k < n then (0, k) else let p := locate ns (k - n); (p.1 + 1, p.2)

/-- dtype class of a block matrix -/
def blockKind {K : Type} (nr nc : Nat) (M : Nat → Nat → Mat K) : DKind :=
  ((List.range nr).flatMap fun i => (List.range nc).map fun j => (M i j).kind).foldl DKind.join .int

/-- The block matrix with row heights `hts`, column widths `wds` and blocks `M i j`, with dtype class `k`. -/
def blockMatK {K : Type} (k : DKind) (hts wds : List Nat) (M : Nat → Nat → Mat K) : Mat K :=
  ⟨hts.sum, wds.sum, k, fun i j => (M (locate hts i).1 (locate wds j).1).e (locate hts i).2 (locate wds j).2⟩

/-- The block matrix with the dtype class common to all its blocks. -/
def blockMat {K : Type} (hts wds : List Nat) (M : Nat → Nat → Mat K) : Mat K :=
  blockMatK (blockKind hts.length wds.length M) hts wds M

/-- The block diagonal matrix with dtype class `k`. -/
def diagMatK {K : Type} [Zero K] (k : DKind) (Bs : List (Mat K)) : Mat K :=
  ⟨(Bs.map Mat.rows).sum, (Bs.map Mat.cols).sum, k, fun i j =>
    let p := locate (Bs.map Mat.rows) i
    let q := locate (Bs.map Mat.cols) j
    if p.1 = q.1 then (Bs[p.1]?.map fun A => A.e p.2 q.2).getD 0 else 0⟩

/-- The block diagonal matrix with the dtype class common to all its blocks. -/
def diagMat {K : Type} [Zero K] (Bs : List (Mat K)) : Mat K :=
  diagMatK ((Bs.map Mat.kind).foldl DKind.join .int) Bs

/-- `locate` finds offset `a` of segment `I`. -/
theorem locate_offset : ∀ (ns : List Nat) (I a : Nat), I < ns.length → a < ns.getD I 0 →
    locate ns ((ns.take I).sum + a) = (I, a)
  | [], I, a, h, _ => by simp at h
  | n :: ns, 0, a, _, ha => by simp_all [locate]
  | n :: ns, I + 1, a, h, ha => by
    have ih := locate_offset ns I a (by simpa using h) (by simpa using ha)
    have e : ((n :: ns).take (I + 1)).sum + a = n + ((ns.take I).sum + a) := by simp [Nat.add_assoc]
    rw [e, locate, if_neg (by omega), Nat.add_sub_cancel_left, ih]

/-- The entries of the block matrix are the entries of the blocks. -/
theorem blockMat_entry {K : Type} (hts wds : List Nat) (M : Nat → Nat → Mat K) (I J a b : Nat) (hI : I < hts.length)
    (hJ : J < wds.length) (ha : a < hts.getD I 0) (hb : b < wds.getD J 0) :
    (blockMat hts wds M).e ((hts.take I).sum + a) ((wds.take J).sum + b) = (M I J).e a b := by
  simp only [blockMat, blockMatK, locate_offset _ _ _ hI ha, locate_offset _ _ _ hJ hb]

/-- every global index lies in a segment -/
theorem locate_lt : ∀ (ns : List Nat) (k : Nat), k < ns.sum →
    (locate ns k).1 < ns.length ∧ (locate ns k).2 < ns.getD (locate ns k).1 0
  | [], k, h => by simp at h
  | n :: ns, k, h => by
    unfold locate
    split
    · simp_all
    · have ih := locate_lt ns (k - n) (by simp at h; omega)
      simpa using ih

/-- The list `G` of lists of operator objects describes the block matrix with heights `hts`, widths `wds`, blocks
`M i j`: the objects are values of program variables that stand for these matrices, of the right shapes. -/
structure BlockGrid {K : Type} (env : List Nat) (mats : List (Mat K)) (G : Grid) (hts wds : List Nat)
    (M : Nat → Nat → Mat K) : Prop where
  nrows : G.length = hts.length
  ncols : ∀ row ∈ G, row.length = wds.length
  pos : hts ≠ [] ∧ wds ≠ []
  entry : ∀ i < hts.length, ∀ j < wds.length, ∃ v r : Nat, env[v]? = some r ∧ mats[v]? = some (M i j) ∧
    (G[i]?.bind fun row => row[j]?) = some (some r)
  rows : ∀ i < hts.length, ∀ j < wds.length, (M i j).rows = hts.getD i 0
  cols : ∀ i < hts.length, ∀ j < wds.length, (M i j).cols = wds.getD j 0

/-- The list `U` describes the upper triangle (diagonal included) of a block matrix with square diagonal blocks of sizes
`ns`: row `i` lists the blocks `(i, i), (i, i+1), ...`; the operators on the diagonal are flagged symmetric / hermitian. -/
structure UpperGrid {K : Type} (env : List Nat) (h : Heap K) (mats : List (Mat K)) (sym herm : Bool) (U : Grid)
    (ns : List Nat) (M : Nat → Nat → Mat K) : Prop where
  nrows : U.length = ns.length
  ncols : ∀ (i : Nat) (row : List (Option Nat)), U[i]? = some row → row.length = ns.length - i
  pos : ns ≠ []
  entry : ∀ i j, i ≤ j → j < ns.length → ∃ v r : Nat, env[v]? = some r ∧ mats[v]? = some (M i j) ∧
    (U[i]?.bind fun row => row[j - i]?) = some (some r)
  diag : ∀ i < ns.length, ∃ (r : Nat) (o : Obj K), (U[i]?.bind fun row => row[0]?) = some (some r) ∧ h[r]? = some o ∧
    (sym = true → o.symmetric = true) ∧ (herm = true → o.hermitian = true)
  rows : ∀ i j, i ≤ j → j < ns.length → (M i j).rows = ns.getD i 0
  cols : ∀ i j, i ≤ j → j < ns.length → (M i j).cols = ns.getD j 0

/-- The list `l` of operator objects describes the list `Bs` of matrices: the objects are values of program variables that
stand for these matrices. -/
def BlockList {K : Type} (env : List Nat) (mats : List (Mat K)) (l : List (Option Nat)) (Bs : List (Mat K)) : Prop :=
  List.Forall₂ (fun b A => ∃ v r : Nat, env[v]? = some r ∧ mats[v]? = some A ∧ b = some r) l Bs

/-- complete an upper triangle, `tr` is transposition or conjugate transposition -/
def mirror {K : Type} (tr : Mat K → Mat K) (M : Nat → Nat → Mat K) : Nat → Nat → Mat K :=
  fun i j => if i ≤ j then M i j else tr (M j i)

/-- replace block `(i, j)` -/
def updM {K : Type} (M : Nat → Nat → Mat K) (i j : Nat) (B : Mat K) : Nat → Nat → Mat K :=
  fun a b => if a = i ∧ b = j then B else M a b

/-- Object `r` acts as the matrix `A`, in every respect: shape, dtype and truthful flags; `op * x` returns exactly for
arrays with the right number of entries and equals `A x`; and the same for `op.T` with the transpose of `A` and `op.H` with
its conjugate transpose. -/
structure ActsAs {K : Type} [CommRing K] [StarRing K] [DTypes K] (h : Heap K) (r : Nat) (A : Mat K) : Prop where
  rep : Represents h r A
  tot : Total h r A
  T : ∃ t, getT h r = some t ∧ Represents h t A.T ∧ Total h t A.T
  H : ∃ t, getH h r = some t ∧ Represents h t A.H ∧ Total h t A.H

end Verif.Blkop
