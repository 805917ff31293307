import Verif.Model.LinksFile
import Verif.Model.StrainPath

/-!
# Loading incrementation of Links simulations

`LinksSimulator._get_links_loading_incrementation` (simulators/links/links.py) prepares the load
increments of a simulation; `plot_links_tfact_hist` (simulators/links/utilities/links_plot_tfact.py)
reads them from an input data file.
-/

noncomputable section

namespace Hooke

/-! ## Writing -/

/-- The variables set at the beginning of `_get_links_loading_incrementation` (links.py:885-897). -/
structure LoadSettings where
  /-- `incrementation_mode`. -/
  mode : String
  /-- `loading_type`. -/
  loading : String
  /-- `n_reverse`. -/
  nReverse : ℕ
  /-- `n_inc`. -/
  nInc : ℕ

/-- Their values in the code. -/
def linksLoadSettings : LoadSettings := ⟨"increment_list", "polynomial", 1, 100⟩

/-- The random draws (links.py:982-1001): number of control points and load factors. -/
structure LoadDraws where
  /-- `n_control`. -/
  nControl : ℕ
  /-- `control_tfact`, before the initial value is set. -/
  tfact : ℕ → ℝ

/-- The increments of proportional and cyclic loadings (links.py:917-973). -/
def cyclicFactors (loading : String) (nReverse nInc : ℕ) : Py (List ℝ) := do
  let r := if loading = "proportional" then 0 else nReverse
  raiseIf (loading = "cyclic_plus" ∧ nInc < r + 1) .runtimeError
  raiseIf (loading = "cyclic_sym" ∧ nInc < 2 * r + 1) .runtimeError
  let m := if loading = "cyclic_sym" then nInc / (2 * r + 1) else nInc / (r + 1)
  let switch := if loading = "cyclic_sym" then 2 else 1
  raiseIf (m = 0) .zeroDivision
  let eff := m * (switch * r + 1)
  let a := (List.range r).foldl
    (fun (a : ℝ × List ℝ) _ => (-a.1, a.2 ++ List.replicate (switch * m) (-a.1)))
    (1 / m, List.replicate m (1 / m))
  return a.2 ++ List.replicate (nInc - eff) 0

/-- The scaling enforcing the bounds (links.py:1013-1038). -/
def scaleTfact (l : List ℝ) : Py (List ℝ) := do
  let big ← npMax (l.map fun x => |x|)
  let mn ← npMin l
  let mx ← npMax l
  if 0 < big ∧ (mn < -1 ∨ 1 < mx) then
    let lDist := if mn < -1 then |-1 - mn| else 0
    let uDist := if 1 < mx then |1 - mx| else 0
    let s := if uDist < lDist then |-1 / mn| else |1 / mx|
    return l.map fun x => s * x
  else return l

/-- Load factor history of polynomial loadings (links.py:976-1038). -/
def polynomialTfact (nInc : ℕ) (d : LoadDraws) : Py (List ℝ) :=
  scaleTfact ((npLinspace 0 1 (nInc + 1)).map (interpolant d.nControl
    (fun k => (npLinspace 0 1 d.nControl).getD k 0) fun k => if k = 0 then 0 else d.tfact k))

/-- The increments of polynomial loadings (links.py:1043-1045). -/
def polynomialFactors (nInc : ℕ) (d : LoadDraws) : Py (List ℝ) := do
  let h ← polynomialTfact nInc d
  (List.range nInc).mapM fun i => do
    let b ← orRaise h[i + 1]? .indexError
    let a ← orRaise h[i]? .indexError
    return b - a

/-- The increments of the mode `increment_list` (links.py:915-1067). -/
def loadFactors (loading : String) (nReverse nInc : ℕ) (d : LoadDraws) : Py (List ℝ) :=
  if loading ∈ ["proportional", "cyclic_plus", "cyclic_sym"] then cyclicFactors loading nReverse nInc
  else if loading = "polynomial" then polynomialFactors nInc d
  else .error .runtimeError

/-- `'{:<16.8e}'.format(1e-6)` (links.py:895). -/
def convTol : Text := "1.00000000e-06  ".toList

/-- Line of an increment (links.py:953-954, 1047-1048). -/
def incrementLine (F : NumberText) (x : ℝ) : Text :=
  "\n1.0 ".toList ++ F.fmt x ++ " ".toList ++ convTol ++ " ".toList ++ strNat 20

/-- `_get_links_loading_incrementation` (links.py:870-1072): the lines. -/
def loadLines (F : NumberText) (S : LoadSettings) (d : LoadDraws) : Py (List Text) :=
  if S.mode = "n_increments" then do
    raiseIf (S.loading ≠ "proportional") .runtimeError
    return ["\nNumber_of_Increments ".toList ++ strNat S.nInc ++ "\n".toList,
      "\nCONVERGENCE_TOLERANCE\n".toList ++ convTol ++ "\n".toList]
  else if S.mode = "increment_list" then do
    let fs ← loadFactors S.loading S.nReverse S.nInc d
    return ("\nINCREMENTS ".toList ++ strNat S.nInc) :: (fs.map (incrementLine F)
      ++ if S.loading = "polynomial" then [] else ["\n".toList])
  else .error .runtimeError

/-! ## Reading -/

/-- The load factors read: `n_inc`, and the second columns of `dfact_hist` and `tfact_hist`. -/
structure LoadHist where
  n : ℤ
  dfact : List ℝ
  tfact : List ℝ

/-- The variables of the loop after the keyword (links_plot_tfact.py:95-108): the rows of the arrays that
are assigned; `inc` is their number. -/
structure TfactState where
  n : ℤ
  dfact : List ℝ
  tfact : List ℝ

/-- An array of `n` numbers, the first ones assigned and the others zero. -/
def padZeros (n : ℕ) (l : List ℝ) : List ℝ := (List.range n).map fun k => l.getD k 0

/-- The arrays after the loop. -/
def TfactState.hist (s : TfactState) : LoadHist :=
  ⟨s.n, padZeros (s.n + 1).toNat s.dfact, padZeros (s.n + 1).toNat s.tfact⟩

/-- `n_inc` and the arrays (links_plot_tfact.py:97-108); `np.zeros` refuses negative numbers of rows. -/
def startLoad (line : Text) : Py TfactState := do
  let f ← fieldOf line 1
  let n ← intOfText f
  raiseIf (n + 1 < 0) .valueError
  return ⟨n, [0], [0]⟩

/-- The line of a number of increments (links_plot_tfact.py:74-92); `np.ones` refuses negative numbers. -/
def uniformLoad (line : Text) : Py LoadHist := do
  let s ← startLoad line
  raiseIf (s.n = 0) .zeroDivision
  raiseIf (s.n < 0) .valueError
  let x : ℝ := 1 / s.n
  return ⟨s.n, 0 :: List.replicate s.n.toNat x,
    (List.range s.n.toNat).foldl (fun t _ => t ++ [t.getLastD 0 + x]) [0]⟩

/-- The increment of a line (links_plot_tfact.py:115-122). -/
def lineFactor (F : NumberText) (line : Text) : Py ℝ :=
  match splitBlank line with
  | [a, _, _] => F.float a
  | [_, b, _, _] => F.float b
  | _ => .error .runtimeError

/-- A line of increments (links_plot_tfact.py:113-128). -/
def TfactState.push (s : TfactState) (x : ℝ) : Py TfactState := do
  raiseIf (s.n + 1 ≤ s.dfact.length) .indexError
  return ⟨s.n, s.dfact ++ [x], s.tfact ++ [s.tfact.getLastD 0 + x]⟩

/-- The loop of `plot_links_tfact_hist` (links_plot_tfact.py:66-128).  If the keyword is not found the
arrays do not exist. -/
def readLoad (F : NumberText) : Option TfactState → List Text → Py LoadHist
  | none, [] => .error .unboundLocal
  | some s, [] => .ok s.hist
  | o, l :: ls =>
    if searchWord "Number_of_Increments".toList l then uniformLoad l
    else if searchWord "INCREMENTS".toList l then do
      let s ← startLoad l
      readLoad F (some s) ls
    else
      match o with
      | none => readLoad F none ls
      | some s =>
        if endsSection l then .ok s.hist
        else do
          let x ← lineFactor F l
          let s' ← s.push x
          readLoad F (some s') ls

/-- `plot_links_tfact_hist` (links_plot_tfact.py:41-151): the load factors written to the file
`tfact_hist.dat`. -/
def readLoadFile (F : NumberText) (file : Text) : Py LoadHist := readLoad F none (fileLines file)

end Hooke
