import Verif.Blkop.Model

/-!
# Model of indexing and of general assignments, `pykrylov/linop/blkop.py`, lines 121-151 and 237-256

`BlockLinearOperator.__getitem__` and `__setitem__` go through `numpy.matrix` objects that hold the blocks,
`BlockDiagonalLinearOperator.__getitem__` and `__setitem__` through the list of blocks.

Simplifications: indices are integers and slices (no lists of indices, boolean masks or `...`); the grid is rectangular (the
constructor rejects the others); a value assigned to a `BlockLinearOperator` is one object (NumPy would also distribute a nested
list); an operator assigned to a slice of a `BlockDiagonalLinearOperator` is not itself a block operator (those are iterable).
An object that is not an operator is `none`: it has no attributes `T`, `H`, `shape`.
-/

namespace Verif.Blkop
open Verif.Linop

/-- A Python slice `start:stop:step`; a missing part is `None`. -/
structure Slice where
  start : Option Int := none
  stop : Option Int := none
  step : Option Int := none
  deriving DecidableEq, Repr

/-- `start` or `stop` of a slice of a sequence of length `n` (`slice.indices` of Python, used in lines 123, 133, 238 and 252):
negative values count from the end, values out of range are clipped to `[lo, hi]`. -/
def Slice.clip (n lo hi : Int) (a : Int) : Int :=
  let a := if a < 0 then a + n else a
  if a < lo then lo else if hi < a then hi else a

/-- first index of a slice, `slice.indices` (lines 123, 133, 238, 252) -/
def Slice.first (s : Slice) (n : Nat) (step : Int) : Int :=
  if step < 0 then match s.start with
    | none => n - 1
    | some a => clip n (-1) (n - 1) a
  else match s.start with
    | none => 0
    | some a => clip n 0 n a

/-- bound of a slice (the first index not taken), `slice.indices` (lines 123, 133, 238, 252) -/
def Slice.bound (s : Slice) (n : Nat) (step : Int) : Int :=
  if step < 0 then match s.stop with
    | none => -1
    | some a => clip n (-1) (n - 1) a
  else match s.stop with
    | none => n
    | some a => clip n 0 n a

/-- number of indices, `slice.indices` (lines 123, 133, 238, 252) -/
def Slice.count (first bound step : Int) : Nat :=
  if step < 0 then (if bound < first then ((first - bound - 1) / (-step) + 1).toNat else 0)
  else (if first < bound then ((bound - first - 1) / step + 1).toNat else 0)

/-- The positions selected by a slice in a sequence of length `n` (lines 123, 133, 238, 252). -/
def Slice.indices (s : Slice) (n : Nat) : Except Err (List Nat) :=
  let step := s.step.getD 1
  if step = 0 then .error .valueError
  else
    let a := s.first n step
    .ok ((List.range (count a (s.bound n step) step)).map fun k : Nat => (a + k * step).toNat)

/-- an index -/
inductive Idx
  | int (i : Int)
  | slice (s : Slice)
  deriving DecidableEq, Repr

/-- The positions selected by an index (lines 123, 133, 238, 252). -/
def Idx.select (n : Nat) : Idx → Except Err (List Nat)
  | .int i => match pyIndex n i with
    | none => .error .indexError
    | some a => .ok [a]
  | .slice s => s.indices n

/-- positions selected in the columns; `op[i]` selects all of them (lines 123, 133) -/
def selectCols (n : Nat) : Option Idx → Except Err (List Nat)
  | none => .ok (List.range n)
  | some j => j.select n

/-- number of columns of a rectangular grid (the matrix of lines 122, 132) -/
def ncols (G : Grid) : Nat := (G.headD []).length

/-- entry of a grid (the matrix of lines 122, 132) -/
def entry (G : Grid) (a b : Nat) : Option Nat := (G[a]?.bind fun row => row[b]?).getD none

/-- result of indexing -/
inductive Item
  | block (r : Nat)
  | op (b : BlkOp)

section
variable {K : Type} [CommRing K] [StarRing K] [DTypes K]

/-- `op[i]` (`j = none`) and `op[i, j]`, lines 121-129. -/
def BlkOp.getItem (h : Heap K) (b : BlkOp) (i : Idx) (j : Option Idx) : Except Err Item := do
  let I ← i.select b.blocks.length
  let J ← selectCols (ncols b.blocks) j
  match i, j, I, J with
  | .int _, some (.int _), [p], [q] => match entry b.blocks p q with
    | some r => .ok (.block r)
    | none => .error .attributeError
  | _, _, I, J => do
    let s ← mkBlock h (I.map fun p => J.map fun q => entry b.blocks p q) false false
    .ok (.op s.1)

/-- `r in op`, lines 146-147 (operators are compared by identity) -/
def BlkOp.contains (b : BlkOp) (r : Nat) : Bool := b.blocks.flatten.contains (some r)

/-- `for row in op`, lines 149-151 -/
def BlkOp.iter (b : BlkOp) : List (List (Option Nat)) := b.blocks

/-- Line 133: `blks_mat[i, j] = val` sets every selected position. -/
def setAll2 (G : Grid) (I J : List Nat) (v : Option Nat) : Grid :=
  G.zipIdx.map fun row => row.1.zipIdx.map fun e => if row.2 ∈ I ∧ e.2 ∈ J then v else e.1

/-- Lines 136-141, the loop over the pairs `(i, j)`: the list afterwards, also when an entry is not an operator. -/
def mirrorUpTo (attr : Nat → Option Nat) : List (Nat × Nat) → Grid → Grid × Option Err
  | [], G => (G, none)
  | p :: ps, G => match mirrorAt attr G p.1 p.2 with
    | .ok G' => mirrorUpTo attr ps G'
    | .error e => (G, some e)

/-- `op[i] = val` and `op[i, j] = val`, lines 131-144: the operator afterwards and the exception.  `self._blocks` is the new list
(line 134) when a later line raises. -/
def BlkOp.assign (h : Heap K) (b : BlkOp) (i : Idx) (j : Option Idx) (v : Option Nat) : BlkOp × Option Err :=
  match i.select b.blocks.length, selectCols (ncols b.blocks) j with
  | .error e, _ => (b, some e)
  | .ok _, .error e => (b, some e)
  | .ok I, .ok J =>
    let G := setAll2 b.blocks I J v
    if b.symmetric = true ∨ b.hermitian = true then
      let m := mirrorUpTo (if b.symmetric = true then getT h else getH h)
        ((List.range G.length).flatMap fun i => (List.range i).map fun j => (i, j)) G
      ({ b with blocks := m.1 }, m.2)
    else
      match transposeGrid (getT h) G, transposeGrid (getH h) G with
      | .ok bT, .ok bH => ({ b with blocks := G, blocksT := bT, blocksH := bH }, none)
      | .error e, _ => ({ b with blocks := G }, some e)
      | .ok bT, .error e => ({ b with blocks := G, blocksT := bT }, some e)

/-! ## Block diagonal operators -/

/-- result of indexing a block diagonal operator -/
inductive DItem
  | block (r : Option Nat)
  | op (b : DiagOp)

/-- `op[idx]`, lines 237-243 -/
def DiagOp.getItem (h : Heap K) (b : DiagOp) : Idx → Except Err DItem
  | .int i => match pyIndex b.blocks.length i with
    | none => .error .indexError
    | some a => .ok (.block (b.blocks[a]?.getD none))
  | .slice s => do
    let I ← s.indices b.blocks.length
    let d ← mkDiag h (I.map fun a => b.blocks[a]?.getD none)
    .ok (.op d)

/-- what is assigned: an operator, a list or tuple, or something else -/
inductive Val
  | op (r : Nat)
  | list (l : List (Option Nat))
  | other

/-- Line 252, `self._blocks.__setitem__(idx, ops)` (a Python list). -/
def listSet (l : List (Option Nat)) : Idx → Val → Except Err (List (Option Nat))
  | .int i, v => match pyIndex l.length i with
    | none => .error .indexError
    | some a => .ok (l.set a (match v with | .op r => some r | _ => none))
  | .slice s, .list vs => do
    let step := s.step.getD 1
    let I ← s.indices l.length
    if step = 1 then
      let a := (s.first l.length 1).toNat
      let b := max a (s.bound l.length 1).toNat
      .ok (l.take a ++ vs ++ l.drop b)
    else if vs.length ≠ I.length then .error .valueError
    else .ok ((I.zip vs).foldl (fun l p => l.set p.1 p.2) l)
  | .slice s, _ => do
    let _ ← s.indices l.length
    .error .typeError

/-- `op[idx] = val`, lines 245-256: the operator afterwards and the exception. -/
def DiagOp.assign (h : Heap K) (b : DiagOp) (idx : Idx) (v : Val) : DiagOp × Option Err :=
  if (match v with | .list vs => vs.any Option.isNone | _ => false) = true then (b, some .valueError)
  else match listSet b.blocks idx v with
    | .error e => (b, some e)
    | .ok bl =>
      let b := { b with blocks := bl, sizes := if b.own then bl else b.sizes }
      let t := if b.symmetric = true then .ok b.blocksT else mapAttr (getT h) bl
      match t with
      | .error e => (b, some e)
      | .ok bT =>
        let b := { b with blocksT := bT }
        let u := if b.hermitian = true then .ok b.blocksH else mapAttr (getH h) bl
        match u with
        | .error e => (b, some e)
        | .ok bH => ({ b with blocksH := bH }, none)

/-- `for blk in op` (no `__iter__`: the sequence protocol calls lines 237-243 with 0, 1, ... until `IndexError`) -/
def DiagOp.iter (b : DiagOp) : List (Option Nat) := b.blocks

end
end Verif.Blkop
