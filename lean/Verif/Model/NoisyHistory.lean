import Verif.Model.SpecimenHistory
import Verif.Model.Noise
import Verif.Model.Denoise

/-!
# Noise in the displacements of the history files of a specimen

`miscellaneous/noisy_data/inject_disp_noise_csv.py:37-140` and
`miscellaneous/noisy_data/denoise_disp_noise_csv.py:40-177` without the plots.  A directory has files,
which are tables, and subdirectories with files, in the order of `os.listdir`; the numbers written in a
file are those read from it.
-/

noncomputable section

open Classical

namespace Hooke

/-- A directory with the files of its subdirectories. -/
structure CsvDir where
  /-- Files. -/
  files : KDict Text Frame
  /-- Subdirectories. -/
  subs : KDict Text (KDict Text Frame)

/-- `int(re.search(r'(.*)_tstep_(\d+)\.csv$', x).groups()[-1])`, and none if the pattern
`r'.*_tstep_\d+\.csv$'` is not found (inject_disp_noise_csv.py:76, 84-86, denoise_disp_noise_csv.py:81,
89-91); names end without a line break. -/
def stepNumber (f : Text) : Option ℕ :=
  match afterPrefix ".csv".toList.reverse f.reverse with
  | none => none
  | some r =>
      match afterPrefix "_tstep_".toList.reverse (r.dropWhile Char.isDigit) with
      | none => none
      | some _ => parseInt (r.takeWhile Char.isDigit).reverse

/-- The data files with their numbers, sorted by number (inject_disp_noise_csv.py:69-86,
denoise_disp_noise_csv.py:74-91). -/
def stepFiles (names : List Text) : List (ℕ × Text) :=
  (names.filterMap fun f => (stepNumber f).map fun n => (n, f)).insertionSort fun a b => a.1 ≤ b.1

/-- The names that `os.listdir` gives. -/
def CsvDir.names (D : CsvDir) : List Text := D.files.keys ++ D.subs.keys

/-- `make_directory(os.path.join(csv_data_dir, dirname), is_overwrite=True)`
(inject_disp_noise_csv.py:63-66, denoise_disp_noise_csv.py:68-71).  A name without a path: for no name,
and for `.`, the directory is the data directory itself. -/
def CsvDir.overwriteSub (D : CsvDir) (dirname : Text) : CsvDir × Py Unit :=
  if dirname = [] ∨ dirname = ['.'] then (⟨[], []⟩, .ok ())
  else if D.files.has dirname then (D, .error .osError)
  else (⟨D.files, D.subs.put dirname []⟩, .ok ())

/-- `pandas.read_csv`; a subdirectory is not read. -/
def CsvDir.read (D : CsvDir) (f : Text) : Py Frame := orRaise (D.files.get? f) .osError

/-- `df.to_csv` of a file in the new directory. -/
def CsvDir.write (D : CsvDir) (dirname f : Text) (fr : Frame) : CsvDir :=
  ⟨D.files, D.subs.put dirname (((D.subs.get? dirname).getD []).put f fr)⟩

/-- `df.iloc[:, 4:7] = disps` for an array of the same number of rows and three columns. -/
def setDisps (fr : Frame) (disps : List (List ℝ)) : Frame :=
  ⟨fr.cols, List.zipWith (fun r u => r.take 4 ++ u ++ r.drop 7) fr.rows disps⟩

/-- `np.array(df.values)[:, 4:7]`. -/
def getDisps (fr : Frame) : List (List ℝ) := fr.rows.map fun r => (r.drop 4).take 3

/-- A table with noise (inject_disp_noise_csv.py:110-133). -/
def noisyFrame (g : NoiseGen) (d : NoiseDraws) (fr : Frame) : Py Frame := do
  raiseIf (fr.cols ≠ 10) .runtimeError
  let noise ← generateNoise g fr.rows.length 3 "homoscedastic" none d
  .ok (setDisps fr (addPaths (getDisps fr) noise))

/-- The time steps after the first (inject_disp_noise_csv.py:102-140); the draws are those of the
successive calls of the generator. -/
def injectSteps (g : NoiseGen) (dirname : Text) (draws : ℕ → NoiseDraws) :
    ℕ → List Text → CsvDir → CsvDir × Py Unit
  | _, [], D => (D, .ok ())
  | t, f :: fs, D =>
      match (D.read f).bind (noisyFrame g (draws t)) with
      | .error e => (D, .error e)
      | .ok fr => injectSteps g dirname draws (t + 1) fs (D.write dirname f fr)

/-- The generator of the noise (inject_disp_noise_csv.py:53-58). -/
def noiseSetup (dist : String) (ps : KDict String ℝ) : Py NoiseGen := do
  let g ← NoiseGen.new.setDistribution dist
  g.setParameters ps

/-- The first step, without noise, and the others (inject_disp_noise_csv.py:69-140). -/
def injectFiles (g : NoiseGen) (dirname : Text) (draws : ℕ → NoiseDraws) (D : CsvDir) :
    CsvDir × Py Unit :=
  match (stepFiles D.names).map Prod.snd with
  | [] => (D, .error .indexError)
  | f :: fs =>
      match D.read f with
      | .error e => (D, .error e)
      | .ok fr => injectSteps g dirname draws 1 fs (D.write dirname f fr)

/-- `inject_displacements_noise` (inject_disp_noise_csv.py:37-140) for a directory that exists: the
directory afterwards, and how it ends. -/
def injectNoise (dist : String) (ps : KDict String ℝ) (dirname : Text) (draws : ℕ → NoiseDraws)
    (D : CsvDir) : CsvDir × Py Unit :=
  match noiseSetup dist ps with
  | .error e => (D, .error e)
  | .ok g =>
      match D.overwriteSub dirname with
      | (D', .error e) => (D', .error e)
      | (D', .ok _) => injectFiles g dirname draws D'

/-- The tables of the history (denoise_disp_noise_csv.py:97-120): ten columns each, and as many rows as
the first. -/
def historyTables (D : CsvDir) (fs : List Text) : Py (List Frame) := do
  let frs ← fs.mapM fun f => do
    let fr ← D.read f
    raiseIf (fr.cols ≠ 10) .runtimeError
    pure fr
  match frs with
  | [] => .error .valueError
  | fr :: _ => do
    raiseIf ((frs.all fun fr' => decide (fr'.rows.length = fr.rows.length)) = false) .valueError
    pure frs

/-- The displacements of a node (denoise_disp_noise_csv.py:127, 131), in double precision. -/
def nodeSeries (frs : List Frame) (j : ℕ) : Series :=
  ⟨.float64, frs.length, 3, fun t c => (frs.getD t ⟨0, []⟩).at j (4 + c)⟩

/-- The displacements of a node without noise, and zero in the first step
(denoise_disp_noise_csv.py:127-136). -/
def cleanSeries (den : Series → Py Series) (frs : List Frame) (j : ℕ) : Py (ℕ → ℕ → ℝ) := do
  let y ← den (nodeSeries frs j)
  pure fun t c => if t = 0 then 0 else y.val t c

/-- `denoise_displacements_noise` (denoise_disp_noise_csv.py:40-160); `den` is the denoiser with its
parameters. -/
def denoiseFiles (den : Series → Py Series) (dirname : Text) (D : CsvDir) : CsvDir × Py Unit :=
  match D.overwriteSub dirname with
  | (D', .error e) => (D', .error e)
  | (D', .ok _) =>
      let fs := (stepFiles D'.names).map Prod.snd
      match historyTables D' fs with
      | .error e => (D', .error e)
      | .ok frs =>
          let n := (frs.getD 0 ⟨0, []⟩).rows.length
          match (List.range n).mapM (cleanSeries den frs) with
          | .error e => (D', .error e)
          | .ok clean =>
              ((List.zip fs frs).zipIdx.foldl (fun D'' p => D''.write dirname p.1.1
                (setDisps p.1.2 (clean.map fun u => [u p.2 0, u p.2 1, u p.2 2]))) D', .ok ())

end Hooke
