import Verif.Tools.ChecksProps

/-!
# Model of the checks together with NumPy's global random generator, `pykrylov/tools/utils.py:63-112`

`Tools/Checks` takes the random vectors as given.  Here they come from the global generator, which the checks share with the caller:
`check_symmetric` reseeds it, `check_positive_definite` does not.

Simplifications: those of `Tools/Checks`; the generator is an arbitrary deterministic machine with states `G.State` (NumPy's is the Mersenne
Twister); a vector of `n` random numbers is `n` successive draws, which is how `np.random.random(n)` works.
-/

namespace Verif.Tools
open Classical Matrix

/-- a random number generator: `seed` gives the state after `np.random.seed(k)`, `next` draws one number -/
structure Generator where
  State : Type
  seed : Nat → State
  next : State → ℝ × State

variable (G : Generator)

/-- `np.random.random(n)` as a list: `n` draws, in order -/
def Generator.draws : Nat → G.State → List ℝ × G.State
  | 0, s => ([], s)
  | n + 1, s =>
    let (a, s) := G.next s
    let (l, s) := Generator.draws n s
    (a :: l, s)

/-- `np.random.random(n)` as an array -/
def Generator.array (n : Nat) (s : G.State) : (Fin n → ℝ) × G.State :=
  let (l, s) := G.draws n s
  (fun i => l.getD i 0, s)

/-- The loop of `check_symmetric`, `utils.py:75-85`, with `k` repetitions left: the verdict, the state of the generator afterwards, and the
number of products with the operator (two per repetition). -/
noncomputable def symmetricRun {n : Nat} (A : Matrix (Fin n) (Fin n) ℂ) (eps eps3 : ℝ) : Nat → G.State → Bool × G.State × Nat
  | 0, s => (true, s, 0)
  | k + 1, s =>
    let (x, s) := G.array n s
    if asymmetryFound A eps eps3 x then (false, s, 2)
    else
      let (verdict, s, products) := symmetricRun A eps eps3 k s
      (verdict, s, products + 2)

/-- `check_symmetric(op, repeats)`, `utils.py:63-85`.  `np.random.seed(1)` is line 74, after the test of the shape. -/
noncomputable def checkSymmetricRun {m n : Nat} (A : Matrix (Fin m) (Fin n) ℂ) (repeats : Nat) (eps eps3 : ℝ) (s : G.State) :
    Bool × G.State × Nat :=
  if h : m = n then symmetricRun G (A.submatrix (Fin.cast h.symm) id) eps eps3 repeats (G.seed 1) else (false, s, 0)

/-- The loop of `check_positive_definite`, `utils.py:98-112`. -/
noncomputable def definiteRun {n : Nat} (A : Matrix (Fin n) (Fin n) ℂ) (sqrteps : ℝ) (semi : Bool) : Nat → G.State → Bool × G.State × Nat
  | 0, s => (true, s, 0)
  | k + 1, s =>
    let (v, s) := G.array n s
    if negativeFound A sqrteps semi v then (false, s, 1)
    else
      let (verdict, s, products) := definiteRun A sqrteps semi k s
      (verdict, s, products + 1)

/-- `check_positive_definite(op, repeats, semi)`, `utils.py:88-112`. -/
noncomputable def checkDefiniteRun {m n : Nat} (A : Matrix (Fin m) (Fin n) ℂ) (repeats : Nat) (semi : Bool) (sqrteps : ℝ) (s : G.State) :
    Bool × G.State × Nat :=
  if h : m = n then definiteRun G (A.submatrix (Fin.cast h.symm) id) sqrteps semi repeats s else (false, s, 0)

/-- What a client does: seeds the generator, draws a number, or calls a check (on an operator of any shape). -/
inductive Cmd where
  | seed (k : Nat)
  | draw
  | symmetric (m n : Nat) (A : Matrix (Fin m) (Fin n) ℂ) (repeats : Nat)
  | definite (m n : Nat) (A : Matrix (Fin m) (Fin n) ℂ) (repeats : Nat) (semi : Bool)

/-- What the client sees: numbers and verdicts. -/
inductive Seen where
  | number (a : ℝ)
  | verdict (b : Bool)

/-- One command. -/
noncomputable def Cmd.run (eps eps3 sqrteps : ℝ) (s : G.State) : Cmd → Option Seen × G.State
  | .seed k => (none, G.seed k)
  | .draw => let (a, s) := G.next s; (some (.number a), s)
  | .symmetric _ _ A repeats => let (b, s, _) := checkSymmetricRun G A repeats eps eps3 s; (some (.verdict b), s)
  | .definite _ _ A repeats semi => let (b, s, _) := checkDefiniteRun G A repeats semi sqrteps s; (some (.verdict b), s)

/-- A sequence of commands: what the client sees, and the last state. -/
noncomputable def runAll (eps eps3 sqrteps : ℝ) : List Cmd → G.State → List Seen × G.State
  | [], s => ([], s)
  | c :: cs, s =>
    let (o, s) := c.run G eps eps3 sqrteps s
    let (l, s) := runAll eps eps3 sqrteps cs s
    (o.toList ++ l, s)

end Verif.Tools
