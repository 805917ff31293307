import Verif.Model.ModelState
import Mathlib.Data.Real.Basic

/-!
# Text files

Texts are lists of characters.  The file readers of the code
(`user_scripts/global_model_update/material_finder/gen_specimen_data.py`,
`simulators/links/utilities/links_data_to_adimu.py`) go through the lines of a file and look for
keywords with regular expressions; the functions of the Python library and the few regular
expressions they use are modelled here.  Texts are ASCII.
-/

namespace Hooke

/-- A piece of text. -/
abbrev Text := List Char

/-- The characters removed by `str.strip()` and separating the fields of `str.split()`. -/
def isBlankChar (c : Char) : Bool :=
  c == ' ' || c == '\t' || c == '\n' || c == '\r' || c == Char.ofNat 11 || c == Char.ofNat 12

/-- `s.strip()`. -/
def stripText (s : Text) : Text :=
  ((s.dropWhile isBlankChar).reverse.dropWhile isBlankChar).reverse

/-- The pieces of a text between the characters satisfying `p`. -/
def splitText (p : Char → Bool) : Text → List Text
  | [] => [[]]
  | c :: cs =>
    if p c then [] :: splitText p cs
    else
      match splitText p cs with
      | [] => [[c]]
      | h :: t => (c :: h) :: t

/-- `s.split(sep=',')`. -/
def splitComma (s : Text) : List Text := splitText (· == ',') s

/-- `s.split()`. -/
def splitBlank (s : Text) : List Text := (splitText isBlankChar s).filter (fun w => decide (w ≠ []))

/-- `for line in file`: the lines of a text, without the newline characters ending them (all the
uses of a line ignore it). -/
def fileLines (s : Text) : List Text :=
  if (splitText (· == '\n') s).getLast? = some [] then (splitText (· == '\n') s).dropLast
  else splitText (· == '\n') s

/-- `int(s)`: surrounding blanks, a sign and decimal digits (underscores between digits, which
Python accepts too, are written nowhere by the code). -/
def intOfText (s : Text) : Py ℤ :=
  match stripText s with
  | '-' :: r => (orRaise (parseInt r) .valueError).map fun n : ℕ => -(n : ℤ)
  | '+' :: r => (orRaise (parseInt r) .valueError).map fun n : ℕ => (n : ℤ)
  | r => (orRaise (parseInt r) .valueError).map fun n : ℕ => (n : ℤ)

/-- `str(z)`, `f'{z:d}'`. -/
def textOfInt (z : ℤ) : Text := if z < 0 then '-' :: strNat z.natAbs else strNat z.natAbs

/-- `'{:>ws}'.format(s)`, `f'{i:>wd}'`. -/
def padLeft (w : ℕ) (s : Text) : Text := List.replicate (w - s.length) ' ' ++ s

/-- `sep.join(xs)`. -/
def joinText (sep : Text) (xs : List Text) : Text := sep.intercalate xs

/-- The texts of floating point numbers.  The formatting of `float` is not modelled: it is a
parameter of the model. -/
structure NumberText where
  /-- `f'{x:16.8e}'`. -/
  fmt : ℝ → Text
  /-- `str(x)`. -/
  str : ℝ → Text
  /-- `float(s)` of a text without surrounding blanks; `none` if it raises. -/
  parse : Text → Option ℝ

/-- `float(s)`. -/
def NumberText.float (F : NumberText) (s : Text) : Py ℝ := orRaise (F.parse (stripText s)) .valueError

/-- What follows the prefix `p`, ignoring the case, if the text begins with it. -/
def afterPrefixCI : Text → Text → Option Text
  | [], f => some f
  | _ :: _, [] => none
  | c :: cs, d :: ds => if c.toLower = d.toLower then afterPrefixCI cs ds else none

/-- `\w`. -/
def isWordChar (c : Char) : Bool := c.isAlphanum || c == '_'

/-- No word character follows. -/
def noWordNext : Text → Bool
  | [] => true
  | c :: _ => !isWordChar c

/-- `re.match(pat + r'\b', s, re.IGNORECASE)` for a literal pattern ending with a word character. -/
def matchWord (pat s : Text) : Bool :=
  match afterPrefixCI pat s with
  | some r => noWordNext r
  | none => false

/-- `bool(re.search(pat + r'\b', s, re.IGNORECASE))` for a literal pattern ending with a word
character. -/
def searchWord (pat : Text) : Text → Bool
  | [] => matchWord pat []
  | c :: cs => matchWord pat (c :: cs) || searchWord pat cs

/-- `bool(re.search(r'^[*][A-Z]+', line))`. -/
def isStarKeyword : Text → Bool
  | '*' :: c :: _ => c.isUpper
  | _ => false

/-- The lines ending a section (gen_specimen_data.py:209-210 and the other loops):
`bool(re.search(r'^[*][A-Z]+', line)) or line.strip() == ''`. -/
def endsSection (line : Text) : Bool := isStarKeyword line || decide (stripText line = [])

/-- The lines a reader acts on: the lines with the keyword and the lines of its sections. -/
inductive ScanEvent
  | key (line : Text)
  | data (line : Text)

/-- The loop common to the readers (gen_specimen_data.py:201-216, 236-275, 288-307,
links_data_to_adimu.py:165-188 and others):
```
for line in file:
    if <keyword in line>: is_keyword_found = True; ...
    elif is_keyword_found and <line ends section>: break   (or is_keyword_found = False)
    elif is_keyword_found: ...
```
`stops` tells whether the end of a section stops the loop. -/
def scanLines (isKey : Text → Bool) (stops : Bool) : Bool → List Text → List ScanEvent
  | _, [] => []
  | found, l :: ls =>
    if isKey l then .key l :: scanLines isKey stops true ls
    else if found && endsSection l then
      if stops then [] else scanLines isKey stops false ls
    else if found then .data l :: scanLines isKey stops true ls
    else scanLines isKey stops false ls

/-- The data lines among the lines acted on. -/
def dataLines : List ScanEvent → List Text
  | [] => []
  | .key _ :: es => dataLines es
  | .data l :: es => l :: dataLines es

end Hooke
