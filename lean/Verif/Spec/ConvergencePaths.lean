import Verif.Model.ConvergencePaths

/-! # Figures of models with different training sets -/

noncomputable section

namespace Hooke.Spec

/-- What the figure of a component and a sample is expected to show: the reference of the first model, and
the predictions of every model with the size of its training set. -/
def ShownPaths (m0 : ConvModel) (models : List ConvModel) (type : String) (comp : String × ℕ) (s : ℕ) :
    SamplePaths :=
  ⟨comp.1, s, ("Ground-Truth", (m0.path type comp.2 s).map fun q => (q.1, q.2.1)) ::
    models.map fun m => ("N = " ++ toString m.trainSize, (m.path type comp.2 s).map fun q => (q.1, q.2.2))⟩

end Hooke.Spec
