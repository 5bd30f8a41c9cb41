import Verif.Model.Parse
/-!
# What an indented text shows

Uses only `Item` (what is yielded for a line), `Line` and the exceptions.
-/
namespace Verif

/-- A line of an outline: empty, or a text at some depth. -/
inductive Entry where
  | blank
  | text (depth : Nat) (t : Line)

namespace Entry

/-- The line as it is written: `depth` copies of the indentation unit, the text, and `eol` line feeds. -/
def write (unit : Line) (eol : Nat) : Entry → Line
  | blank => List.replicate eol '\n'
  | text d t => (List.replicate d unit).flatten ++ t ++ List.replicate eol '\n'

/-- The text is one that the layout can show: it starts with a visible character and has no line feed in it. -/
def Plain : Entry → Prop
  | blank => True
  | text _ t => (∃ c cs, t = c :: cs ∧ isSpace c = false) ∧ '\n' ∉ t

/-- No occurrence of `u` in the text. -/
def Free (u : Line) : Entry → Prop
  | blank => True
  | text _ t => ¬ u <:+: t

end Entry

/-- `above` lists the non-empty lines above, the nearest first: (number, depth). The nearest one that is shallower. -/
def nearest (above : List (Nat × Nat)) (d : Nat) : Option Nat := (above.find? (fun a => decide (a.2 < d))).map Prod.fst

/-- The depth grows by at most one, and the first line is not indented. -/
def Fits (above : List (Nat × Nat)) (d : Nat) : Prop :=
  match above with
  | [] => d = 0
  | a :: _ => d ≤ a.2 + 1

instance (above : List (Nat × Nat)) (d : Nat) : Decidable (Fits above d) := by
  unfold Fits
  split <;> infer_instance

/-- Reading an outline line by line. `show` says what becomes of a text. An empty line counts as a repetition of the last
non-empty one; there must be one. -/
def readFrom (shown : Nat → Line → Line) (above : List (Nat × Nat)) (i : Nat) : List Entry → List Item × Option PyErr
  | [] => ([], none)
  | .blank :: es =>
    match above with
    | [] => ([], some .unboundLocalError)
    | a :: _ =>
      let r := readFrom shown above (i + 1) es
      (⟨i, a.2, [], nearest above a.2⟩ :: r.1, r.2)
  | .text d t :: es =>
    if Fits above d then
      let r := readFrom shown ((i, d) :: above) (i + 1) es
      (⟨i, d, shown d t, nearest above d⟩ :: r.1, r.2)
    else ([], some (.valueError "Indentation too deep"))

/-- Reading a whole outline. -/
def readOutline (shown : Nat → Line → Line) (es : List Entry) : List Item × Option PyErr := readFrom shown [] 0 es

end Verif
