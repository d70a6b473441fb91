import Verif.Spec.Forward
/-
Specification: views of views.
-/
namespace INNC.Spec
open Tensor
variable {F : Type}

/-- `v` is a view (slice, transposition, reshape) of `x`, directly or through other views, and `x` is not a view. -/
inductive ViewOn (h : Heap F) : Nat → Nat → Prop
  | base {v x : Nat} : IsView h v → Uses h v x → ¬ IsView h x → ViewOn h v x
  | step {v w x : Nat} : IsView h v → Uses h v w → ViewOn h w x → ViewOn h v x

end INNC.Spec
