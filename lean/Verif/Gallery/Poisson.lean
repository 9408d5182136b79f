import Mathlib.Algebra.Ring.Basic

/-!
# Model of `pykrylov/gallery/gallery.py`

One-dimensional NumPy arrays with basic slices, views and in-place subtraction.  The entries are of any type with
a subtraction and a product, so that the same definitions serve for exact and for floating-point arithmetic.  Simplification: `int(sqrt(x.shape[0]))` (line 12) is the integer square root, i.e. `math.sqrt` is exact
on perfect squares.
-/

namespace Verif.Gallery
variable {K : Type} [Sub K] [Mul K]

/-- A one-dimensional array: `len` entries; the values of `get` beyond `len` are irrelevant. -/
structure Arr (K : Type) where
  len : Nat
  get : Nat → K

/-- Resolution of a slice bound against a length: negative bounds count from the end, and the result is clamped. -/
def bound (len : Nat) (b : Int) : Nat :=
  if b < 0 then (b + len).toNat else min b.toNat len

/-- A view: half-open range of positions of the base array. -/
structure View where
  start : Nat
  stop : Nat

/-- number of entries of a view -/
def View.len (v : View) : Nat := v.stop - v.start

/-- `a[lo:hi]` for an array of length `len`; `none` for an omitted bound. -/
def slice (len : Nat) (lo hi : Option Int) : View :=
  { start := (lo.map (bound len)).getD 0, stop := (hi.map (bound len)).getD len }

/-- slice of a view -/
def View.sub (v : View) (lo hi : Option Int) : View :=
  let s := slice v.len lo hi
  { start := v.start + s.start, stop := v.start + s.stop }

/-- `y[v] -= x[w]` where `x` is not `y`: the lengths must agree, except that a single entry is broadcast; otherwise
`ValueError`, modelled by `none`. -/
def isub (y : Arr K) (v : View) (x : Arr K) (w : View) : Option (Arr K) :=
  if v.len = w.len then
    some { y with get := fun i => if v.start ≤ i ∧ i < v.stop then y.get i - x.get (w.start + (i - v.start)) else y.get i }
  else if w.len = 1 then
    some { y with get := fun i => if v.start ≤ i ∧ i < v.stop then y.get i - x.get w.start else y.get i }
  else none

/-- `k*x`, a new array -/
def scale (k : K) (x : Arr K) : Arr K := { x with get := fun i => k * x.get i }

/-- `Poisson1dMatvec(x)`, `gallery.py:3-8`. -/
def poisson1d [OfNat K 2] (x : Arr K) : Option (Arr K) := do
  let y := scale 2 x
  let y ← isub y (slice x.len none (some (-1))) x (slice x.len (some 1) none)
  let y ← isub y (slice x.len (some 1) none) x (slice x.len none (some (-1)))
  return y

/-- body of the loop, `gallery.py:22-25` -/
def poissonBlock (x : Arr K) (n i : Nat) (y : Arr K) : Option (Arr K) := do
  let xi := slice x.len (some (i * n : Nat)) (some ((i + 1) * n : Nat))
  let yi := slice y.len (some (i * n : Nat)) (some ((i + 1) * n : Nat))
  let y ← isub y (yi.sub none (some (-1))) x (xi.sub (some 1) none)
  isub y (yi.sub (some 1) none) x (xi.sub none (some (-1)))

/-- `for i in xrange(i, i + k)`, `gallery.py:21-25` -/
def poissonBlocks (x : Arr K) (n : Nat) : Nat → Nat → Arr K → Option (Arr K)
  | _, 0, y => some y
  | i, k + 1, y => do
    let y ← poissonBlock x n i y
    poissonBlocks x n (i + 1) k y

/-- `Poisson2dMatvec(x)`, `gallery.py:10-29`. -/
def poisson2d [OfNat K 4] (x : Arr K) : Option (Arr K) := do
  let n := Nat.sqrt x.len
  let nn : Int := n
  let y := scale 4 x
  let y ← isub y (slice x.len (some nn) none) x (slice x.len none (some (-nn)))
  let y ← isub y (slice x.len none (some (-nn))) x (slice x.len (some nn) none)
  let y ← isub y (slice x.len none (some (nn - 1))) x (slice x.len (some 1) (some nn))
  let y ← isub y (slice x.len (some 1) (some nn)) x (slice x.len none (some (nn - 1)))
  let y ← poissonBlocks x n 1 (n - 2) y
  let y ← isub y (slice x.len (some ((nn - 1) * nn + 1)) none) x (slice x.len (some ((nn - 1) * nn)) (some (-1)))
  let y ← isub y (slice x.len (some ((nn - 1) * nn)) (some (nn * nn - 1))) x (slice x.len (some (-nn + 1)) none)
  return y

end Verif.Gallery
