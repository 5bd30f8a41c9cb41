import Verif.Py
/-!
# Choosing colours: `styling/get_least_used_colour.py` and the numbers of `styling/inherit_style.py`

Simplification: Python floats are rational numbers here.
-/
namespace Verif

section
variable {C : Type} [DecidableEq C]

/-- `{colour: 0 for colour in colour_scheme.colours}`, `stylize_with_pensieve.py:17`, `stylize_randomly.py:18`. -/
def coloursUnused (scheme : List C) : Dict C Nat := scheme.foldl (fun d c => dset d c 0) []

/-- The loop of `min(d, key=d.get)`: `best` is kept unless a strictly smaller count comes along.
Python's `min`, used at `get_least_used_colour.py:2`. -/
def minLoop : Dict C Nat → C × Nat → C × Nat
  | [], best => best
  | p :: d, best => if p.2 < best.2 then minLoop d p else minLoop d best

/-- `get_least_used_colour`, `get_least_used_colour.py:2-4`. `min` of an empty dict raises `ValueError`. The result is the
colour and the dict as it is left behind. -/
def getLeastUsedColour (used : Dict C Nat) : Except PyErr (C × Dict C Nat) :=
  match used with
  | [] => .error (.valueError "min() arg is an empty sequence")
  | p :: d =>
    let best := minLoop d p
    .ok (best.1, dset used best.1 (best.2 + 1))

end

/-- `generate_diverging_numbers`, `inherit_style.py:6-11` (for `n = 0` both ranges are empty). -/
def generateDivergingNumbers : Nat → List Rat
  | 0 => []
  | n + 1 =>
    if n + 1 = 1 then [0]
    else if (n + 1) % 2 = 0 then
      (List.range' 1 ((n + 1) / 2)).map (fun x : Nat => (x : Rat) / (((n + 1 : Nat) : Rat) / 2)) ++
        (List.range' 1 ((n + 1) / 2)).map (fun x : Nat => -(x : Rat) / (((n + 1 : Nat) : Rat) / 2))
    else 0 :: generateDivergingNumbers n

/-- Insert into a list sorted by `le`, before the first element that is not smaller.
A step of Python's `sorted`, used at `inherit_style.py:15`. -/
def insertRat (le : Rat → Rat → Bool) (x : Rat) : List Rat → List Rat
  | [] => [x]
  | y :: ys => if le x y then x :: y :: ys else y :: insertRat le x ys

/-- `sorted(l)` / `sorted(l, reverse=True)` on numbers. Simplification: insertion sort.
Python's `sorted`, used at `inherit_style.py:15`. -/
def sortRat (reverse : Bool) (l : List Rat) : List Rat :=
  l.foldr (insertRat (fun a b => if reverse then decide (b ≤ a) else decide (a ≤ b))) []

/-- `get_diverging_number`, `inherit_style.py:15`. -/
def getDivergingNumber (i n : Nat) (reverse : Bool) : Except PyErr Rat :=
  match (sortRat reverse (generateDivergingNumbers n))[i]? with
  | some x => .ok x
  | none => .error .indexError

end Verif
