import Verif.Model.Heap
import Verif.Lemmas.Odo
/-
The monad of heap computations.
-/
namespace INNC
variable {F : Type}

theorem M.bind_def {α β : Type} (x : M F α) (f : α → M F β) (h : Heap F) :
    (x >>= f) h = match x h with
      | .ok a h' => f a h'
      | .throw e h' => .throw e h'
      | .ub u => .ub u := rfl

instance : LawfulMonad (M F) := LawfulMonad.mk'
  (id_map := by
    intro α x; funext h
    show (x >>= fun a => pure (id a)) h = _
    rw [M.bind_def]
    cases x h <;> rfl)
  (pure_bind := by intros; rfl)
  (bind_assoc := by
    intro α β γ x f g; funext h
    simp only [M.bind_def]
    cases x h <;> rfl)
  (bind_pure_comp := by intros; rfl)
  (bind_map := by intros; rfl)

namespace M
variable {α β : Type}

@[simp] theorem pure_run (a : α) (h : Heap F) : (pure a : M F α) h = .ok a h := rfl
@[simp] theorem undef_run (u : UB) (h : Heap F) : (M.undef u : M F α) h = .ub u := rfl
@[simp] theorem raise_run (e : Exc) (h : Heap F) : (M.raise e : M F α) h = .throw e h := rfl
@[simp] theorem lift_ok (a : α) (h : Heap F) : (M.lift (.ok a) : M F α) h = .ok a h := rfl
@[simp] theorem lift_throw (e : Exc) (h : Heap F) : (M.lift (.throw e) : M F α) h = .throw e h := rfl
@[simp] theorem lift_ub (u : UB) (h : Heap F) : (M.lift (.ub u) : M F α) h = .ub u := rfl

theorem bind_ok {x : M F α} {f : α → M F β} {h h' : Heap F} {a : α} (hx : x h = .ok a h') :
    (x >>= f) h = f a h' := by
  rw [M.bind_def, hx]

theorem bind_throw {x : M F α} {f : α → M F β} {h h' : Heap F} {e : Exc} (hx : x h = .throw e h') :
    (x >>= f) h = .throw e h' := by
  rw [M.bind_def, hx]

theorem bind_ub {x : M F α} {f : α → M F β} {h : Heap F} {u : UB} (hx : x h = .ub u) :
    (x >>= f) h = .ub u := by
  rw [M.bind_def, hx]

end M

@[simp] theorem expect_true (h : Heap F) : (expect true : M F Unit) h = .ok () h := rfl
@[simp] theorem expect_false (h : Heap F) : (expect false : M F Unit) h = .throw .runtime h := rfl

theorem getT_ok {h : Heap F} {t : Nat} {i : Impl} (ht : h.ts[t]? = some i) : getT t h = .ok i h := by
  simp [getT, ht]
theorem getS_ok {h : Heap F} {d : Nat} {s : Storage F} (hs : h.st[d]? = some s) : getS d h = .ok s h := by
  simp [getS, hs]

theorem forEach_eq (range : List Nat) (op : List Nat → M F Unit) :
    forEach range op = runAll op (Spec.rowMajor range) := forEachWith_eq _ _ _

/-! ### Relations kept by a computation, on return and on throw -/

/-- Whenever `x` returns or throws, the final state is related to the initial one. -/
def Keeps {α : Type} (R : Heap F → Heap F → Prop) (x : M F α) : Prop :=
  ∀ h, match x h with
    | .ok _ h' => R h h'
    | .throw _ h' => R h h'
    | .ub _ => True

/-- Reflexive and transitive relations on states. -/
class Pre (R : Heap F → Heap F → Prop) : Prop where
  refl : ∀ h, R h h
  trans : ∀ {a b c}, R a b → R b c → R a c

section
variable {α β : Type} {R : Heap F → Heap F → Prop} [Pre R]

theorem Keeps.ok {x : M F α} (hx : Keeps R x) {h h' : Heap F} {a : α} (e : x h = .ok a h') : R h h' := by
  have := hx h; rw [e] at this; exact this
theorem Keeps.throw {x : M F α} (hx : Keeps R x) {h h' : Heap F} {ex : Exc} (e : x h = .throw ex h') : R h h' := by
  have := hx h; rw [e] at this; exact this

theorem keeps_pure (a : α) : Keeps R (pure a : M F α) := fun h => Pre.refl h
theorem keeps_undef (u : UB) : Keeps R (M.undef u : M F α) := fun _ => trivial
theorem keeps_raise (e : Exc) : Keeps R (M.raise e : M F α) := fun h => Pre.refl h
theorem keeps_lift (r : Res α) : Keeps R (M.lift r : M F α) := fun h => by
  cases r <;> first | exact Pre.refl h | trivial
theorem keeps_bind {x : M F α} {f : α → M F β} (hx : Keeps R x) (hf : ∀ a, Keeps R (f a)) : Keeps R (x >>= f) := by
  intro h
  rw [M.bind_def]
  have h1 := hx h
  cases hxh : x h with
  | ok a h' =>
    rw [hxh] at h1
    have h2 := hf a h'
    simp only
    cases hfa : f a h' <;> rw [hfa] at h2 <;> simp only <;> first | exact Pre.trans h1 h2 | trivial
  | throw e h' => rw [hxh] at h1; exact h1
  | ub u => trivial
theorem keeps_expect (b : Bool) : Keeps R (expect b : M F Unit) := by
  cases b
  · exact keeps_raise _
  · exact keeps_pure _
theorem keeps_getT (t : Nat) : Keeps R (getT t : M F Impl) := by
  intro h; unfold getT; cases h.ts[t]? <;> first | exact Pre.refl h | trivial
theorem keeps_getS (t : Nat) : Keeps R (getS t : M F (Storage F)) := by
  intro h; unfold getS; cases h.st[t]? <;> first | exact Pre.refl h | trivial
theorem keeps_load (ty : DType) (i : Impl) (p : Nat) : Keeps R (load ty i p : M F (Val F)) := by
  unfold load
  refine keeps_bind (keeps_getS _) fun s => ?_
  cases s.blob with
  | none => exact keeps_undef _
  | some cells =>
    simp only
    split
    · exact keeps_undef _
    · split
      · exact keeps_undef _
      · exact keeps_undef _
      · exact keeps_pure _
theorem keeps_runAll {γ : Type} {op : γ → M F Unit} (l : List γ) (h : ∀ x ∈ l, Keeps R (op x)) :
    Keeps R (runAll op l) := by
  induction l with
  | nil => exact keeps_pure _
  | cons x l ih => exact keeps_bind (h x (by simp)) fun _ => ih fun y hy => h y (by simp [hy])
theorem keeps_forEach {range : List Nat} {op : List Nat → M F Unit} (h : ∀ x, Keeps R (op x)) :
    Keeps R (forEach range op) := by
  rw [forEach_eq]; exact keeps_runAll _ fun x _ => h x
end

end INNC
