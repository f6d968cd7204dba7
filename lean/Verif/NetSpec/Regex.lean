import Verif.Base.Dict
import Mathlib.Data.List.TakeWhile

/-!
# Regular expressions as Python's `re` applies them

A pattern is run on a text and gives all ways it can match a prefix, the preferred one first:
`*`, `+` and `?` prefer more repetitions, `a|b` prefers `a`, exactly as a backtracking engine
explores them.  A match is the text that remains and the groups captured on the way.

Only what `create_net_from_spec` (brainstorm/tools.py:569-582) uses is modelled.
-/

namespace Verif.NetSpec

/-- Patterns. -/
inductive Re
  /-- one character of a class, such as `[a-z]` or `\s` -/
  | chr (p : Char → Bool)
  /-- `ab` -/
  | seq (a b : Re)
  /-- `a|b` -/
  | alt (a b : Re)
  /-- `a*` -/
  | star (a : Re)
  /-- `a?` -/
  | opt (a : Re)
  /-- a capturing group, with its number -/
  | cap (n : Nat) (a : Re)

/-- `a+`. -/
def Re.plus (a : Re) : Re := .seq a (.star a)

/-- The remaining text and the groups captured so far, the latest first. -/
structure Pos where
  rest : List Char
  caps : List (Nat × List Char)
deriving DecidableEq, Repr

/-- `a*`: as long as `a` consumes something it may be repeated (a repetition that consumes nothing is not tried again);
`n` bounds the number of repetitions. -/
def runStar (f : Pos → List Pos) : Nat → Pos → List Pos
  | 0, s => [s]
  | n + 1, s => ((f s).filter (fun t => t.rest.length < s.rest.length)).flatMap (runStar f n) ++ [s]

/-- All ways a pattern matches a prefix of the text, the preferred one first. -/
def Re.run : Re → Pos → List Pos
  | .chr p, s => match s.rest with
    | [] => []
    | c :: r => if p c then [⟨r, s.caps⟩] else []
  | .seq a b, s => (a.run s).flatMap b.run
  | .alt a b, s => a.run s ++ b.run s
  | .star a, s => runStar a.run s.rest.length s
  | .opt a, s => a.run s ++ [s]
  | .cap n a, s => (a.run s).map (fun t => ⟨t.rest, (n, s.rest.take (s.rest.length - t.rest.length)) :: t.caps⟩)

/-- `pattern.match(text)`: the preferred way. -/
def Re.first (r : Re) (text : List Char) : Option Pos := (r.run ⟨text, []⟩).head?

/-- What group `n` of a match captured last. -/
def Pos.group (m : Pos) (n : Nat) : Option (List Char) := (m.caps.find? (fun e => e.1 = n)).map Prod.snd

/-- `re.finditer(pattern, text)` for a pattern that never matches the empty text: where the pattern does not match, one
character is skipped; after a match the search goes on behind it.  `fuel` bounds the number of rounds. -/
def findAllFuel (r : Re) : Nat → List Char → List Pos
  | 0, _ => []
  | n + 1, text => match text with
    | [] => []
    | c :: rest => match r.first (c :: rest) with
      | none => findAllFuel r n rest
      | some m => m :: findAllFuel r n m.rest

/-- `re.finditer(pattern, text)`; every round consumes a character. -/
def findAll (r : Re) (text : List Char) : List Pos := findAllFuel r text.length text

end Verif.NetSpec
