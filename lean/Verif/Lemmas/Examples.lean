import Verif.Lemmas.Binary
import Verif.Spec.Toy
/-
Concrete heaps used in the examples beside the theorems.
-/
namespace INNC
open Spec
variable {F : Type} [FOps F]

/-! ### A concrete heap for the examples: `a` is the 2x3 `i16` matrix 1..6, `b` the `i32` row [10, 20, 30] -/

/-- Two tensors on two storages; the third tensor is the transpose of the first. -/
def exHeap : Heap Int where
  st := [⟨.i16, 12, some [some (.i 1), some (.i 2), some (.i 3), some (.i 4), some (.i 5), some (.i 6)]⟩,
    ⟨.i32, 12, some [some (.i 10), some (.i 20), some (.i 30)]⟩]
  ts := [⟨.i16, ⟨[2, 3], [3, 1], 0⟩, 0, none, false, false, none⟩,
    ⟨.i32, ⟨[3], [1], 0⟩, 1, none, false, false, none⟩,
    ⟨.i16, ⟨[3, 2], [1, 3], 0⟩, 0, none, false, false, none⟩]
  gver := 0

def exA (idx : List Nat) : Val Int := .i (3 * idx.getD 0 0 + idx.getD 1 0 + 1)
def exB (idx : List Nat) : Val Int := .i (10 * idx.getD 0 0 + 10)

/-- `Reads` for an explicitly listed storage, decided index by index. -/
theorem reads_of_check {h : Heap F} {i : Impl} {f : List Nat → Val F} {s : Storage F} {cells : List (Option (Val F))}
    (h1 : i.view.strides.length = i.view.sizes.length) (h2 : i.view.offset < 18446744073709551616)
    (h3 : h.st[i.data]? = some s) (h4 : s.dt = i.dtype) (h5 : s.blob = some cells)
    (h6 : cells.length < 9223372036854775808)
    (h7 : ∀ idx ∈ rowMajor i.view.sizes, position i.view idx = (position i.view idx).toNat ∧
      cells[(position i.view idx).toNat]? = some (some (f idx)))
    (h8 : ∀ idx ∈ rowMajor i.view.sizes, (f idx).HasType i.dtype) : Reads h i f :=
  ⟨h1, h2, ⟨s, cells, h3, h4, h5, h6, fun idx hb => ⟨_, (h7 idx (mem_rowMajor.2 hb)).1, (h7 idx (mem_rowMajor.2 hb)).2⟩⟩,
    fun idx hb => h8 idx (mem_rowMajor.2 hb)⟩

theorem forall_inBox {s : List Nat} {P : List Nat → Prop} (h : ∀ idx ∈ rowMajor s, P idx) :
    ∀ idx, InBox s idx → P idx := fun idx hb => h idx (mem_rowMajor.2 hb)

instance (t : DType) (v : Val Int) : Decidable (v.HasType t) := by
  cases v <;> (unfold Val.HasType; infer_instance)

theorem exHeap_a : Denotes exHeap 0 .i16 [2, 3] exA :=
  ⟨_, rfl, rfl, rfl, reads_of_check (by decide) (by decide) rfl rfl rfl (by decide) (by decide) (by decide)⟩
theorem exHeap_b : Denotes exHeap 1 .i32 [3] exB :=
  ⟨_, rfl, rfl, rfl, reads_of_check (by decide) (by decide) rfl rfl rfl (by decide) (by decide) (by decide)⟩
theorem exHeap_aT : Denotes exHeap 2 .i16 [3, 2] fun idx => exA [idx.getD 1 0, idx.getD 0 0] :=
  ⟨_, rfl, rfl, rfl, reads_of_check (by decide) (by decide) rfl rfl rfl (by decide) (by decide) (by decide)⟩

end INNC
