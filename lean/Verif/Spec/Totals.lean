import Verif.Model.Tensor
import Verif.Spec.Heap
/-
Specification: what `sum()` and `mean()` of a tensor return.
-/
namespace INNC.Spec
variable {F : Type} [FOps F]

/-- `t.sum()` returns a tensor that holds the number `v`. -/
def SumIs (h : Heap F) (t : Nat) (v : Val F) : Prop := ∃ r h' dt, Tensor.sumT t h = .ok r h' ∧ Denotes h' r dt [] fun _ => v

/-- `t.mean()` returns a tensor that holds the number `v`. -/
def MeanIs (h : Heap F) (t : Nat) (v : Val F) : Prop := ∃ r h' dt, Tensor.meanT t h = .ok r h' ∧ Denotes h' r dt [] fun _ => v

end INNC.Spec
