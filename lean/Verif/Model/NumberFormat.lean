import Verif.Model.TextFile
import Mathlib.Data.Int.Log
import Mathlib.Data.Real.Archimedean
import Mathlib.Algebra.Order.Floor.Semiring

/-!
# Texts of numbers

The functions writing files format numbers in scientific notation (`f'{x:16.8e}'`,
`'{:11.4e}'.format(x)`, ...) and those reading them use `float(...)`.  Both belong to the Python
library; they are modelled here for real numbers.  A floating point number is written from its exact
value, which is a real number, and the value of the text is the real number `float` rounds (rounding
to the nearest floating point number is not modelled, nor are infinities, not-a-numbers and the
sign of a zero).
-/

namespace Hooke

/-- Nearest natural number of a number that is not negative; the even one if there are two. -/
noncomputable def roundEven (y : ℝ) : ℕ :=
  if y - (⌊y⌋₊ : ℝ) < 1 / 2 then ⌊y⌋₊
  else if 1 / 2 < y - (⌊y⌋₊ : ℝ) then ⌊y⌋₊ + 1
  else if ⌊y⌋₊ % 2 = 0 then ⌊y⌋₊ else ⌊y⌋₊ + 1

/-- The digits (as a natural number) and the exponent of the scientific notation of `x` with `p` digits
after the point (links.py:604, 625, 954, links_data_to_adimu.py:478, links_dat_to_inp.py:195, 374, 398,
links_specimen_dirichlet.py:242; as specified by the Python library). -/
noncomputable def sciParts (p : ℕ) (x : ℝ) : ℕ × ℤ :=
  if x = 0 then (0, 0)
  else
    let e := Int.log 10 |x|
    let m := roundEven (|x| * (10 : ℝ) ^ ((p : ℤ) - e))
    if m = 10 ^ (p + 1) then (10 ^ p, e + 1) else (m, e)

/-- `s.zfill(w)` of digits. -/
def zeroPad (w : ℕ) (s : Text) : Text := List.replicate (w - s.length) '0' ++ s

/-- `f'{x:.pe}'`, with `p` positive. -/
noncomputable def sciText (p : ℕ) (x : ℝ) : Text :=
  let ds := zeroPad (p + 1) (strNat (sciParts p x).1)
  (if x < 0 then ['-'] else []) ++ ds.take 1 ++ '.' :: ds.drop 1
    ++ 'e' :: (if (sciParts p x).2 < 0 then '-' else '+') :: zeroPad 2 (strNat (sciParts p x).2.natAbs)

/-- `f'{x:w.pe}'`, with `p` positive. -/
noncomputable def sciField (w p : ℕ) (x : ℝ) : Text := padLeft w (sciText p x)

/-- Digits with at most one point among them. -/
noncomputable def pointNumber (s : Text) : Option ℝ :=
  match splitText (· == '.') s with
  | [a] => (parseInt a).map fun n : ℕ => (n : ℝ)
  | [a, b] => (parseInt (a ++ b)).map fun n : ℕ => (n : ℝ) / 10 ^ b.length
  | _ => none

/-- Digits after an optional sign. -/
def signedDigits : Text → Option ℤ
  | '-' :: r => (parseInt r).map fun n : ℕ => -(n : ℤ)
  | '+' :: r => (parseInt r).map fun n : ℕ => (n : ℤ)
  | r => (parseInt r).map fun n : ℕ => (n : ℤ)

/-- The value of the text of a number without sign. -/
noncomputable def unsignedNumber (s : Text) : Option ℝ :=
  match splitText (fun c => c == 'e' || c == 'E') s with
  | [m] => pointNumber m
  | [m, k] =>
    match pointNumber m, signedDigits k with
    | some a, some n => some (a * (10 : ℝ) ^ n)
    | _, _ => none
  | _ => none

/-- `float(s)` of a text without surrounding blanks: sign, digits with a point, exponent;
`none` if it raises (`inf`, `nan` and underscores, which Python accepts too, are not modelled). -/
noncomputable def numberOfText : Text → Option ℝ
  | '-' :: r => (unsignedNumber r).map fun a => -a
  | '+' :: r => unsignedNumber r
  | r => unsignedNumber r

/-- The formatting and reading of numbers with `f'{x:16.8e}'` and `float`; `str(x)` (the shortest
text) stays a parameter. -/
noncomputable def pythonNumbers (str : ℝ → Text) : NumberText where
  fmt := sciField 16 8
  str := str
  parse := numberOfText

end Hooke
