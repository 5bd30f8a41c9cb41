import Verif.Py
/-!
# `parse_indentations`

A line is a `List Char` (a Python `str` is a sequence of code points; lone surrogates are left out).
-/
namespace Verif

/-- A line of `text_lines`, `parse_indentations_function.py:19`. -/
abbrev Line := List Char

/-- `str.isspace()` of one character, which is what `\s` in a `str` pattern matches.
`parse_indentations_function.py:16`, `20`. -/
def isSpace (c : Char) : Bool :=
  let n := c.toNat
  (9 ≤ n && n ≤ 13) || (28 ≤ n && n ≤ 32) || n == 0x85 || n == 0xa0 || n == 0x1680 || (0x2000 ≤ n && n ≤ 0x200a) ||
    n == 0x2028 || n == 0x2029 || n == 0x202f || n == 0x205f || n == 0x3000

/-- `line.rstrip('\n')`, `parse_indentations_function.py:20`. -/
def rstripNl (l : Line) : Line := (l.reverse.dropWhile (· = '\n')).reverse

/-- `line.lstrip(chars)`, `parse_indentations_function.py:25`. -/
def lstrip (chars l : Line) : Line := l.dropWhile (· ∈ chars)

/-- `l.replace(old, new, count)` for a non-empty `old`: leftmost occurrences first, not overlapping. `skip` counts the
characters of an occurrence that are still to be dropped. (An empty `old` is met with `count = 0` only.).
`parse_indentations_function.py:25`. -/
def replaceGo (old new : Line) : Nat → Nat → Line → Line
  | _, _, [] => []
  | skip + 1, count, _ :: cs => replaceGo old new skip count cs
  | 0, 0, c :: cs => c :: cs
  | 0, count + 1, c :: cs =>
    if old.isPrefixOf (c :: cs) then new ++ replaceGo old new (old.length - 1) count cs
    else c :: replaceGo old new 0 (count + 1) cs

/-- `l.replace(old, new, count)`, `parse_indentations_function.py:25`. -/
def replaceN (old new : Line) (count : Nat) (l : Line) : Line := replaceGo old new 0 count l

/-- `" " * 4`. `parse_indentations_function.py:25`. -/
def four : Line := [' ', ' ', ' ', ' ']

/-- `regex.match(line)` for `^(?P<indent>(?: {4})*)(?P<name>\S.*)`, `parse_indentations_function.py:16, 27`: the number of
groups of four blanks and the name. A match needs the leading blanks to be a multiple of four, because the next character
must not be white space; `.` does not match a line feed. -/
def matchLine (l : Line) : Option (Nat × Line) :=
  match l.dropWhile (· = ' ') with
  | [] => none
  | c :: cs =>
    if (l.takeWhile (· = ' ')).length % 4 = 0 ∧ isSpace c = false then
      some ((l.takeWhile (· = ' ')).length / 4, (c :: cs).takeWhile (· ≠ '\n'))
    else none

/-- What is yielded for a line. `parse_indentations_function.py:39`. -/
structure Item where
  index : Nat
  level : Nat
  content : Line
  parent : Option Nat
  deriving DecidableEq, Repr

/-- The local variables of the generator; `level` is unbound before the first non-empty line.
`parse_indentations_function.py:17-36`. -/
structure PState where
  indent : Option Line := none
  stack : List Nat := []
  level : Option Nat := none

/-- `if indent is None: if line.startswith(...): indent = ...`, `parse_indentations_function.py:21-23`. -/
def detect (indent : Option Line) (line : Line) : Option Line :=
  match indent with
  | some u => some u
  | none =>
    match line with
    | '\t' :: _ => some (line.takeWhile (fun c => c = ' ' ∨ c = '\t'))
    | ' ' :: _ => some (line.takeWhile (fun c => c = ' ' ∨ c = '\t'))
    | _ => none

/-- `parse_indentations_function.py:24-25`. -/
def expand (indent : Option Line) (line : Line) : Line :=
  match indent with
  | none => line
  | some u => replaceN u four (line.length - (lstrip u line).length) line

/-- The parent in `parse_indentations_function.py:39`. -/
def parentAt (stack : List Nat) (level : Nat) : Except PyErr (Option Nat) :=
  if level = 0 then .ok none
  else
    match stack[level - 1]? with
    | none => .error .indexError
    | some p => .ok (some p)

/-- One round of the loop, `parse_indentations_function.py:19-39`. -/
def parseLine (s : PState) (index : Nat) (line : Line) : Except PyErr (PState × Item) :=
  let line := rstripNl line
  let indent := detect s.indent line
  let line := expand indent line
  if line.length > 0 then
    match matchLine line with
    | none => .error (.valueError "Indentation not a multiple of spaces or tabs")
    | some (level, name) =>
      if level > s.stack.length then .error (.valueError "Indentation too deep")
      else do
        let stack := s.stack.take level ++ [index]
        let p ← parentAt stack level
        .ok ({ indent := indent, stack := stack, level := some level }, ⟨index, level, name, p⟩)
  else
    match s.level with
    | none => .error .unboundLocalError
    | some level => do
      let p ← parentAt s.stack level
      .ok ({ s with indent := indent }, ⟨index, level, [], p⟩)

/-- The loop, from the line with number `index` on: what is yielded, and the exception that ends the generator, if any.
`parse_indentations_function.py:19-39`. -/
def parseFrom : PState → Nat → List Line → List Item × Option PyErr
  | _, _, [] => ([], none)
  | s, index, line :: lines =>
    match parseLine s index line with
    | .error e => ([], some e)
    | .ok (s', item) => (item :: (parseFrom s' (index + 1) lines).1, (parseFrom s' (index + 1) lines).2)

/-- `parse_indentations(lines, indent)`, `parse_indentations_function.py:5-39`. -/
def parseIndentations (lines : List Line) (indent : Option Line) : List Item × Option PyErr :=
  parseFrom { indent := indent } 0 lines

end Verif
