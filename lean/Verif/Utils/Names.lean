/-!
# Names: `brainstorm/utils.py` lines 17-25 and Python's `"{}_{}".format`

Strings are lists of Unicode code points.
-/

namespace Verif

/-- A Python `str`: its list of code points. -/
abbrev Name := List Char

/-- String literal as a `Name`. -/
def str (s : String) : Name := s.toList

/-- `[_a-zA-Z]` in `PYTHON_IDENTIFIER`, brainstorm/utils.py:17. -/
def isIdentStart (c : Char) : Bool :=
  c = '_' || ('a' ≤ c && c ≤ 'z') || ('A' ≤ c && c ≤ 'Z')

/-- `[_a-zA-Z0-9]` in `PYTHON_IDENTIFIER`, brainstorm/utils.py:17. -/
def isIdentChar (c : Char) : Bool := isIdentStart c || ('0' ≤ c && c ≤ '9')

/-- `PYTHON_IDENTIFIER.match(identifier)`, brainstorm/utils.py:17,25.
`$` (no `re.MULTILINE`) matches at the end of the string and also just before a
newline that ends the string, so one trailing newline is accepted. -/
def matchesIdentifier : Name → Bool
  | [] => false
  | c :: rest => isIdentStart c && go rest
where
  /-- `[_a-zA-Z0-9]*$` -/
  go : Name → Bool
  | [] => true
  | ['\n'] => true
  | c :: rest => isIdentChar c && go rest

/-- `NAME_BLACKLIST`, brainstorm/utils.py:19. -/
def nameBlacklist : List Name := [str "default", str "fallback"]

/-- `is_valid_layer_name`, brainstorm/utils.py:22-25. -/
def isValidLayerName (identifier : Name) : Bool :=
  if identifier ∈ nameBlacklist then false else matchesIdentifier identifier

/-- The decimal digit character of `d < 10`. -/
def digitChar (d : Nat) : Char := Char.ofNat (48 + d)

/-- Digits of `n` with a bound on their number. -/
def decimalAux : Nat → Nat → Name
  | 0, n => [digitChar n]
  | fuel + 1, n => if n < 10 then [digitChar n] else decimalAux fuel (n / 10) ++ [digitChar (n % 10)]

/-- `str(n)` for a non-negative Python integer (`n` digits are always enough). -/
def decimal (n : Nat) : Name := decimalAux n n

/-- `"{}_{}".format(base, i)`. -/
def indexed (base : Name) (i : Nat) : Name := base ++ '_' :: decimal i

end Verif
