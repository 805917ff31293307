import Verif.Model.PredictionData
import Verif.Model.NumberFormat

/-!
# Mean prediction metrics

`utilities/output_prediction_metrics.py`: the mean over the samples of the errors of the stored
predictions, the file they are written to and read from, and the data of the convergence plot.
-/

namespace Hooke

/-- An entry of a tensor of metrics.  The metrics are not negative, so that the quotient by a zero is
infinite or, for 0/0, not a number (overflow is not modelled). -/
inductive MetricVal
  | num (x : ℝ)
  | inf
  | nan

/-- `a/b` for numbers that are not negative. -/
noncomputable def divVal (a b : ℝ) : MetricVal :=
  if b ≠ 0 then .num (a / b) else if a = 0 then .nan else .inf

/-- Not a number. -/
def MetricVal.isNan : MetricVal → Bool
  | .nan => true
  | _ => false

/-- Infinite. -/
def MetricVal.isInf : MetricVal → Bool
  | .inf => true
  | _ => false

/-- The number, if it is one. -/
def MetricVal.num? : MetricVal → Option ℝ
  | .num x => some x
  | _ => none

/-- `torch.mean` of the entries of the samples. -/
noncomputable def meanVals (l : List MetricVal) : MetricVal :=
  if l.any MetricVal.isNan then .nan
  else if l.any MetricVal.isInf then .inf
  else .num (meanR (l.filterMap MetricVal.num?))

/-- The metric of a sample (output_prediction_metrics.py:248-258). -/
noncomputable def sampleValues (metric : String) (rmse mav : List ℝ) : Py (List MetricVal) :=
  if metric = "rmse" then .ok (rmse.map .num)
  else if metric = "nrmse" then .ok (List.zipWith divVal rmse mav)
  else .error .runtimeError

/-- Body of the loop over the samples (output_prediction_metrics.py:237-258). -/
noncomputable def metricsStep (metrics : List String) (acc : PyDict (List (List MetricVal)))
    (r : SampleResults) : Py (PyDict (List (List MetricVal))) := do
  let m ← predictionMetrics r ["rmse", "mav_gt"]
  let rmse ← orRaise (m.get? "rmse") .keyError
  let mav ← orRaise (m.get? "mav_gt") .keyError
  metrics.foldlM (fun acc metric => do
    let v ← sampleValues metric rmse mav
    pure (acc.put metric ((acc.get? metric).getD [] ++ [v]))) acc

/-- `torch.mean(torch.stack(values, dim=0), dim=0)`, or an empty tensor without samples
(output_prediction_metrics.py:265-269). -/
noncomputable def stackMean : List (List MetricVal) → Py (List MetricVal)
  | [] => .ok []
  | v :: vs => do
    raiseIf (∃ w ∈ vs, w.length ≠ v.length) .runtimeError
    pure ((List.range v.length).map fun j => meanVals ((v :: vs).map fun w => w.getD j .nan))

/-- `compute_mean_prediction_metrics` (output_prediction_metrics.py:217-271), for the results in the
files. -/
noncomputable def meanMetrics (rs : List SampleResults) (metrics : List String) :
    Py (PyDict (List MetricVal)) := do
  let samples ← rs.foldlM (metricsStep metrics) (metrics.foldl (fun d x => d.put x []) [])
  metrics.foldlM (fun out metric => do
    let v ← stackMean ((samples.get? metric).getD [])
    pure (out.put metric v)) []

/-- `get_samples_prediction_files` (output_prediction_metrics.py:178-215): the names of the files. -/
def metricFiles (d : PredDir) : Py (List Text) := do
  raiseIf (d = []) .runtimeError
  pure (d.keys.filter fun name => (sampleIdOf name).isSome)

/-- The results loaded from a file. -/
def loadResults (d : PredDir) (name : Text) : Py SampleResults :=
  match d.get? name with
  | none => .error .runtimeError
  | some (.results r) => .ok ⟨r.out, r.targets⟩
  | some .other => .error .typeError

/-- `compute_directory_prediction_metrics` (output_prediction_metrics.py:91-149): the number of samples
and the mean metrics. -/
noncomputable def directoryMetrics (d : PredDir) (metrics : List String) :
    Py (ℕ × PyDict (List MetricVal)) := do
  let names ← metricFiles d
  let rs ← names.mapM (loadResults d)
  let m ← meanMetrics rs metrics
  pure (names.length, m)

/-! ## The file -/

/-- `f'{x:15.8e}'` (output_prediction_metrics.py:431). -/
noncomputable def metricField : MetricVal → Text
  | .num x => sciField 15 8 x
  | .inf => padLeft 15 "inf".toList
  | .nan => padLeft 15 "nan".toList

/-- The text of a metric (output_prediction_metrics.py:430-433). -/
noncomputable def metricText (p : String × List MetricVal) : Text :=
  "\n    > ".toList ++ p.1.toList ++ ": [".toList ++ joinText ", ".toList (p.2.map metricField)
    ++ "]".toList

/-- `format_mean_metrics_results` (output_prediction_metrics.py:401-437). -/
noncomputable def formatMetrics (n : ℕ) (res : PyDict (List MetricVal)) (label : Text) : Text :=
  "\n> Process: ".toList ++ label ++ "\n    > n_sample = ".toList ++ strNat n
    ++ (res.map metricText).flatten ++ "\n\n".toList

/-- `write_mean_metrics_results_file` (output_prediction_metrics.py:273-326) in an existing directory:
the content of the file after it, if it was `old` (`none`: no file). -/
noncomputable def writeMetrics (old : Option Text) (overwrite : Bool) (n : ℕ)
    (res : PyDict (List MetricVal)) (label : Text) : Text :=
  match old, overwrite with
  | some t, false => t ++ formatMetrics n res label
  | _, _ => "\nMean prediction metrics\n-----------------------\n".toList ++ formatMetrics n res label

/-- `compute_processes_prediction_metrics` (output_prediction_metrics.py:24-89): the results and the
file. -/
noncomputable def processesMetrics (dirs : KDict Text PredDir) (metrics : List String)
    (old : Option Text) : Py (KDict Text (ℕ × PyDict (List MetricVal)) × Option Text) :=
  dirs.foldlM (fun acc p => do
    let r ← directoryMetrics p.2 metrics
    pure (acc.1.put p.1 r, some (writeMetrics acc.2 false r.1 r.2 p.1))) ([], old)

/-- `re.search(pat, s, re.IGNORECASE)` for a literal pattern. -/
def searchCI (pat : Text) : Text → Bool
  | [] => (afterPrefixCI pat []).isSome
  | c :: cs => (afterPrefixCI pat (c :: cs)).isSome || searchCI pat cs

/-- `re.match(r'n_sample\s*=\s*(\d+)', s)`: the number. -/
def samplesHere (s : Text) : Option ℕ :=
  match afterPrefix "n_sample".toList s with
  | none => none
  | some r =>
    match r.dropWhile isBlankChar with
    | '=' :: q => parseInt ((q.dropWhile isBlankChar).takeWhile Char.isDigit)
    | _ => none

/-- `re.search(r'n_sample\s*=\s*(\d+)', line)`: the number (output_prediction_metrics.py:364-365). -/
def samplesOf : Text → Option ℕ
  | [] => samplesHere []
  | c :: cs =>
    match samplesHere (c :: cs) with
    | some n => some n
    | none => samplesOf cs

/-- `re.fullmatch(r'e[-+]?\d+', s)` or empty. -/
def isExponent : Text → Bool
  | [] => true
  | 'e' :: '-' :: r => (parseInt r).isSome
  | 'e' :: '+' :: r => (parseInt r).isSome
  | 'e' :: r => (parseInt r).isSome
  | _ => false

/-- `s` without the character `c` at its beginning, if it is there. -/
def dropChar (c : Char) : Text → Text
  | [] => []
  | d :: r => if d = c then r else d :: r

/-- `re.fullmatch(r'-?\d*\.?\d*(?:e[-+]?\d+)?', s)`. -/
def isNumberPattern (s : Text) : Bool :=
  isExponent ((dropChar '.' ((dropChar '-' s).dropWhile Char.isDigit)).dropWhile Char.isDigit)

/-- The regular expression of a line with a metric (output_prediction_metrics.py:377-383): the name and
the fields between the brackets.  The pattern of a number contains none of the characters that follow it,
so that the fields are the pieces between the commas without the blanks around them. -/
def metricLine (line : Text) : Option (Text × List Text) :=
  match line.dropWhile isBlankChar with
  | '>' :: r =>
    let w := r.dropWhile isBlankChar
    match w.takeWhile isWordChar, w.dropWhile isWordChar with
    | [], _ => none
    | name, ':' :: q =>
      match q.dropWhile isBlankChar with
      | '[' :: b =>
        if ']' ∈ b ∧ ∀ f ∈ splitComma (b.takeWhile (· ≠ ']')), isNumberPattern (stripText f) then
          some (name, splitComma (b.takeWhile (· ≠ ']')))
        else none
      | _ => none
    | _, _ => none
  | _ => none

/-- Values of the fields (output_prediction_metrics.py:387-389). -/
noncomputable def fieldValues (fs : List Text) : Py (List ℝ) :=
  (fs.filter fun f => decide (stripText f ≠ [])).mapM fun f =>
    orRaise (numberOfText (stripText f)) .valueError

/-- Loop over the lines (output_prediction_metrics.py:361-391). -/
noncomputable def readMetricsLoop (n : Option ℕ) : Bool → PyDict (List ℝ) → List Text →
    Py (PyDict (List ℝ))
  | _, acc, [] => .ok acc
  | found, acc, l :: ls =>
    if searchCI "n_sample =".toList l then
      match samplesOf l with
      | none => .error .attributeError
      | some k => readMetricsLoop n (found || decide (n = none ∨ n = some k)) acc ls
    else if found && endsSection l then .ok acc
    else if found then
      match metricLine l with
      | none => .error .attributeError
      | some p =>
        match fieldValues p.2 with
        | .error e => .error e
        | .ok v => readMetricsLoop n found (acc.put (String.ofList p.1) v) ls
    else readMetricsLoop n found acc ls

/-- `read_mean_metrics_results_file` (output_prediction_metrics.py:328-399) for the content of the
file. -/
noncomputable def readMetrics (file : Text) (n : Option ℕ) : Py (PyDict (List ℝ)) := do
  let d ← readMetricsLoop n false [] (fileLines file)
  raiseIf (d = []) .runtimeError
  pure d

/-! ## The data of the convergence plot -/

/-- `re.search(r'^n([0-9]+)$', process_label)`: the number.  A label that ends with a newline is not
modelled. -/
def sizeOfLabel : Text → Option ℕ
  | 'n' :: r => parseInt r
  | _ => none

/-- The data of the plot of a metric (output_prediction_metrics.py:476-518): the rows, each with the pairs
of the columns `2*i` and `2*i + 1`.  The result of the search is used without looking whether there is
one: the condition (482) tests the built-in function `id`. -/
def convergenceData (res : KDict Text (ℕ × PyDict (List MetricVal))) (metric : String) :
    Py (List (List (ℕ × MetricVal))) := do
  let sizes ← res.keys.mapM fun l => orRaise (sizeOfLabel l) .attributeError
  let data ← (sizes.insertionSort (· ≤ ·)).mapM fun k => do
    let r ← orRaise (res.get? ('n' :: strNat k)) .keyError
    orRaise (r.2.get? metric) .keyError
  let n ← orRaise (data.head?.map List.length) .runtimeError
  raiseIf (∃ v ∈ data, v.length ≠ n) .runtimeError
  pure (List.zipWith (fun k v => v.map fun x => (k, x)) (sizes.insertionSort (· ≤ ·)) data)

end Hooke
