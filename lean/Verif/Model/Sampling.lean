import Verif.Py
import Mathlib.Data.Rat.Defs
import Mathlib.Data.Nat.Sqrt

/-!
# Model of the sampling sequences of acrobotics/util.py

`vdc` works on exact fractions (ℚ); the rounding of `remainder / denom` and of the sum is not
modelled.  The square root of the primality test enters as a parameter `root`, standing for
`int(num ** 0.5)`; `Nat.sqrt` is the exact one.
-/

namespace Verif.Sampling

/-- util.py:189-192: the loop of `vdc`.  Python integers are unbounded, `divmod` rounds towards
minus infinity. -/
def vdcLoop (base : Int) : Nat → Int → ℚ → Int → Except PyErr ℚ
  | fuel, n, v, denom =>
    if n = 0 then .ok v
    else match fuel with
      | 0 => .error .outOfFuel
      | fuel + 1 =>
        let denom := denom * base
        if base = 0 then .error .zeroDivisionError
        else
          let q := n.fdiv base
          let remainder := n.fmod base
          vdcLoop base fuel q (v + (remainder : ℚ) / (denom : ℚ)) denom

/-- util.py:182-193 `vdc` -/
def vdc (fuel : Nat) (n base : Int) : Except PyErr ℚ := vdcLoop base fuel n 0 1

/-- util.py:197-202 `is_prime`: no divisor in `range(2, int(num ** 0.5) + 1)`. -/
def isPrime (root : Nat → Nat) (num : Nat) : Bool :=
  (List.range' 2 (root num + 1 - 2)).all fun i => num % i ≠ 0

/-- util.py:205-208: resume the generator; `prime` is the next candidate.  Returns the value
yielded and the candidate after it. -/
def nextPrime (root : Nat → Nat) : Nat → Nat → Except PyErr (Nat × Nat)
  | 0, _ => .error .outOfFuel
  | fuel + 1, prime =>
    if isPrime root prime then .ok (prime, prime + 2) else nextPrime root fuel (prime + 2)

/-- `dim` calls of `next` on the generator. (util.py:216-219) -/
def takePrimes (root : Nat → Nat) (fuel : Nat) : Nat → Nat → Except PyErr (List Nat)
  | 0, _ => .ok []
  | dim + 1, prime => do
    let r ← nextPrime root fuel prime
    let ps ← takePrimes root fuel dim r.2
    .ok (r.1 :: ps)

/-- The attributes of a `HaltonSampler`. (util.py:212-222) -/
structure Halton where
  dim : Nat
  primes : List Nat
  cnt : Nat
  deriving DecidableEq

/-- util.py:212-222 `HaltonSampler.__init__`; the generator starts at 3 (204). -/
def Halton.new (root : Nat → Nat) (fuel dim : Nat) : Except PyErr Halton := do
  let ps ← takePrimes root fuel dim 3
  .ok { dim := dim, primes := ps, cnt := 1 }

/-- `np.array(seq).T` for a list of equally long lists; without any list the result has no rows.
(util.py:230) -/
def npTranspose {α : Type} : List (List α) → List (List α)
  | [] => []
  | r :: rs => (List.range r.length).map fun i => (r :: rs).filterMap fun l => l[i]?

/-- util.py:224-230 `get_samples`: rows and the sampler afterwards. -/
def Halton.getSamples (fuel : Nat) (s : Halton) (n : Nat) :
    Except PyErr (List (List ℚ) × Halton) := do
  let seq ← (List.range s.dim).mapM fun d => do
    let base ← pyGet s.primes d
    (List.range' s.cnt n).mapM fun (i : Nat) => vdc fuel i base
  .ok (npTranspose seq, { s with cnt := s.cnt + n })

/-- A history of requests to one sampler; the rows of all answers. (util.py:224-230) -/
def Halton.requests (fuel : Nat) : Halton → List Nat → Except PyErr (List (List ℚ) × Halton)
  | s, [] => .ok ([], s)
  | s, n :: ns => do
    let r ← s.getSamples fuel n
    let rest ← Halton.requests fuel r.2 ns
    .ok (r.1 ++ rest.1, rest.2)

end Verif.Sampling
