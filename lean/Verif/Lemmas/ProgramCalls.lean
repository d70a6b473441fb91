import Verif.Lemmas.Program
import Verif.Lemmas.Forward
/-
Programs: every call simulates its rule.
-/
namespace INNC
open Spec Tensor
variable {F : Type} [FOps F]

theorem shape_here {h : Heap F} {env loc : Nat → Nat} {w : World F} {v r dt f o i} (H : Here h env loc w v r dt f o i) :
    shapeOf h (env o) = r.sizes := by rw [shapeOf_eq H.impl, H.sizes]

theorem at_here {h : Heap F} {env loc : Nat → Nat} {w : World F} {v r dt f o i} (H : Here h env loc w v r dt f o i)
    {P : Impl → Prop} (hp : P i) : ∀ j, h.ts[env o]? = some j → P j := by
  intro j hj
  rw [H.impl] at hj
  obtain rfl := Option.some.inj hj
  exact hp

theorem maxShape_eq {u v s : List Nat} (h : bshape u v = some s) (hs : ¬ stretched u v) : maxShape u v = s := by
  have h1 := broadcastRange_max u v
  rw [broadcastRange_eq h hs] at h1
  injection h1 with h1
  exact h1.symm

section
variable {h : Heap F} {env loc : Nat → Nat} {w : World F}

theorem Mirrors.arith (S : Mirrors h env loc w) {op : AOp} {l r : Nat} {a b : Ref} {da db : DType} {fa fb g : List Nat → Val F} {s : List Nat}
    (hl : Carries w l a da fa) (hr : Carries w r b db fb) (hb : bshape a.sizes b.sizes = some s) (hns : ¬ stretched a.sizes b.sizes)
    (hm : Modest s .f64)
    (hg : ∀ idx, InBox s idx → elemBinary op da db (fa (project a.sizes idx)) (fb (project b.sizes idx)) = some (g idx)) :
    Acts h env w (rename (fun v => (w.vars.map env).getD v 0) (binary op l r)) (· = w.fresh (later da db) s g (a.grad || b.grad)) := by
  obtain ⟨ol, il, Hl⟩ := S.get hl
  obtain ⟨or, ir, Hr⟩ := S.get hr
  obtain ⟨h', li, ri, j, e1, e2, e3, e4, e5, e6, e7, e8, e9, e10, e11, e12, e13⟩ := arith_ok (op := op) Hl.denotes Hr.denotes hb hns
    (modest_of_f64 hm _).bytes hg
  rw [Hl.impl] at e1
  obtain rfl := Option.some.inj e1
  rw [Hr.impl] at e2
  obtain rfl := Option.some.inj e2
  obtain ⟨j', hj', d1, d2, d3⟩ := e4
  rw [e7] at hj'
  obtain rfl := Option.some.inj hj'
  have hv : ∀ x ∈ [env ol, env or], Owned h x := by
    intro x hx
    simp only [List.mem_cons, List.not_mem_nil, or_false] at hx
    rcases hx with rfl | rfl
    · exact Hl.good
    · exact Hr.good
  have ha : Modest (maxShape (shapeOf h (env ol)) (shapeOf h (env or))) .f64 := by
    rw [shape_here Hl, shape_here Hr, maxShape_eq hb hns]; exact hm
  have hlt : Spec.vol s < 9223372036854775808 := by have := hm.vol; omega
  have hbr : (rename (fun v => (w.vars.map env).getD v 0) (binary op l r) : Call F) = binary op (env ol) (env or) := by
    rw [← Hl.handle, ← Hr.handle]; cases op <;> rfl
  rw [hbr]
  have hrun : (binary op (env ol) (env or)).run h = .ok (some h.ts.length) h' := by
    have := some_run e3
    cases op <;> exact this
  refine S.newContig hrun (by cases op <;> rfl) (by cases op <;> exact ha) (by cases op <;> exact hv) e5.preserves e7 d3 d1 e10
    (by rw [e12, Hl.grad, Hr.grad]) (Nat.le_refl _) (Nat.le_of_eq e9.symm) hlt

theorem Mirrors.neg (S : Mirrors h env loc w) {v : Nat} {r : Ref} {dt : DType} {f g : List Nat → Val F} (hh : Carries w v r dt f)
    (hm : Modest r.sizes .f64) (hg : ∀ idx, InBox r.sizes idx → elemArith .sub .i32 dt (.i 0) (f idx) = some (g idx)) :
    Acts h env w (rename (fun v => (w.vars.map env).getD v 0) (.neg v)) (· = w.fresh (later .i32 dt) r.sizes g r.grad) := by
  obtain ⟨o, i, H⟩ := S.get hh
  obtain ⟨h1, e1, b1, hl1, hl2⟩ := createScalar_ok (F := F) (dt := .i32) (v := .i 0) (by rw [hasType_i]; decide) h
  have hbs : bshape [] r.sizes = some r.sizes := by
    rw [bshape_comm]
    unfold bshape
    rw [show ([] : List Nat).reverse = [] from rfl]
    have : ∀ u : List Nat, bshapeRev u [] = some u := by
      intro u; cases u <;> rfl
    rw [this]; simp
  have hns : ¬ stretched [] r.sizes := by
    unfold stretched; simp [stretchRev]
  obtain ⟨h', li, ri, j, k1, k2, e3, e4, e5, e6, e7, e8, e9, e10, e11, e12, e13⟩ := arith_ok (op := .sub) b1.denotes
    (H.denotes.of_extends b1.ext) hbs hns (modest_of_f64 hm _).bytes
    (g := g) (fun idx hb => by
      rw [project_self hb]
      unfold elemBinary
      rw [if_neg (by simp)]
      exact hg idx hb)
  obtain ⟨d, hobj, _⟩ := b1.obj
  rw [hobj] at k1
  obtain rfl := Option.some.inj k1
  rw [b1.ext.ts _ _ H.impl] at k2
  obtain rfl := Option.some.inj k2
  obtain ⟨j', hj', d1, d2, d3⟩ := e4
  rw [e7] at hj'
  obtain rfl := Option.some.inj hj'
  have hrun : (Call.neg (env o) : Call F).run h = .ok (some h1.ts.length) h' := by
    refine some_run ?_
    unfold Tensor.negT
    rw [M.bind_ok e1]
    exact e3
  simp only [rename]
  rw [H.handle]
  refine S.newContig hrun rfl (by show Modest (shapeOf h (env o)) .f64; rw [shape_here H]; exact hm)
    (fun x hx => by simp only [args, List.mem_singleton] at hx; subst hx; exact H.good) (b1.ext.trans e5).preserves e7 d3 d1 e10
    (by rw [e12, H.grad]; simp) b1.ext.ts_len (by rw [e9]; exact b1.ext.st_len) (by have := hm.vol; omega)

theorem Mirrors.like (S : Mirrors h env loc w) {v : Nat} {r : Ref} {dt : DType} {f : List Nat → Val F} (hh : Carries w v r dt f) :
    ∃ o i, Here h env loc w v r dt f o i ∧ ∀ x ∈ [env o], Owned h x := by
  obtain ⟨o, i, H⟩ := S.get hh
  exact ⟨o, i, H, fun x hx => by simp only [List.mem_singleton] at hx; subst hx; exact H.good⟩

theorem isSome_ite {b : Bool} {x : GradFn} : (if b then some x else none : Option GradFn).isSome = b := by cases b <;> rfl

theorem scalar_vol : Spec.vol [] < 9223372036854775808 := by decide

theorem Mirrors.makes (S : Mirrors h env loc w) {c : Call F} {Q : World F → Prop} (hr : Rule w c Q)
    (hc : match c with
      | .scalar .. | .init .. | .zeros .. | .ones .. | .zerosLike .. | .onesLike .. | .fullInt .. | .fullReal .. | .eye .. | .fromBlob ..
      | .randn .. | .randnLike .. | .clone .. | .contiguous .. | .cmp .. | .sum .. | .mean .. => True
      | _ => False) :
    Acts h env w (rename (fun v => (w.vars.map env).getD v 0) c) Q := by
  cases hr with
  | scalar hv =>
    obtain ⟨h', e, b, _⟩ := createScalar_ok hv h
    exact S.built (some_run e) b rfl rfl hv (by simp [args, rename]) scalar_vol
  | init hu ht hm hf =>
    obtain ⟨h', e, b, _⟩ := ofInit_ok hu ht hm.bytes h _ hf
    exact S.built (c := .init _) e b rfl rfl ⟨_, _, hu, ht, hm⟩ (by simp [args]) (by have := hm.vol; omega)
  | zeros hm =>
    obtain ⟨h', e, b, _⟩ := zeros_ok (F := F) hm.bytes h
    exact S.built (c := .zeros _ _) (some_run e) b rfl rfl hm (by simp [args]) (by have := hm.vol; omega)
  | ones hm =>
    obtain ⟨h', t, e, b⟩ := fillNew_ok (F := F) (nt := .i8) (v := .i 1) (hasType_small (by omega) rfl) (convert_one .i8 _ (.inl rfl)) hm.bytes h
    exact S.built (c := .ones _ _) (some_run e) b rfl rfl hm (by simp [args]) (by have := hm.vol; omega)
  | @zerosLike v r dt f hh hm =>
    obtain ⟨o, i, H, hv⟩ := S.like hh
    obtain ⟨h', e, b, _⟩ := zeros_ok (F := F) hm.bytes h
    simp only [rename]
    rw [H.handle]
    refine S.built (c := .zerosLike _) (some_run ?_) b rfl rfl (at_here H ?_) hv (by have := hm.vol; omega)
    · unfold Tensor.zerosLike
      rw [M.bind_ok (getT_ok H.impl), H.sizes, H.dtype]
      exact e
    · rw [H.sizes, H.dtype]; exact hm
  | @onesLike v r dt f hh hm =>
    obtain ⟨o, i, H, hv⟩ := S.like hh
    obtain ⟨h', t, e, b⟩ := fillNew_ok (F := F) (nt := .i8) (v := .i 1) (hasType_small (by omega) rfl) (convert_one .i8 _ (.inl rfl)) hm.bytes h
    simp only [rename]
    rw [H.handle]
    refine S.built (c := .onesLike _) (some_run ?_) b rfl rfl (at_here H ?_) hv (by have := hm.vol; omega)
    · unfold Tensor.onesLike
      rw [M.bind_ok (getT_ok H.impl), H.sizes, H.dtype]
      exact e
    · rw [H.sizes, H.dtype]; exact hm
  | fullInt hm hn hx =>
    obtain ⟨h', t, e, b⟩ := fillNew_ok (F := F) (nt := .i64) (hasType_i.2 ⟨rfl, hn⟩) hx hm.bytes h
    exact S.built (c := .fullInt _ _ _) (some_run e) b rfl rfl ⟨hm, hn⟩ (by simp [args]) (by have := hm.vol; omega)
  | fullReal hm hx =>
    obtain ⟨h', t, e, b⟩ := fillNew_ok (F := F) (hasType_f.2 rfl) hx hm.bytes h
    exact S.built (c := .fullReal _ _ _) (some_run e) b rfl rfl hm (by simp [args]) (by have := hm.vol; omega)
  | eye hm =>
    obtain ⟨h', e, b⟩ := eye_ok (F := F) hm.bytes h (convert_one .i32 _ (.inr rfl))
    exact S.built (c := .eye _ _ _) (some_run e) b rfl rfl hm (by simp [args]) (by have := hm.vol; omega)
  | fromBlob hm hl ht hf =>
    obtain ⟨h', e, b⟩ := fromBlob_ok (F := F) hm.bytes h hl ht _ hf
    exact S.built (c := .fromBlob _ _ _) (some_run e) b rfl rfl ⟨hm, hl, ht⟩ (by simp [args]) (by have := hm.vol; omega)
  | randn hm =>
    obtain ⟨h', e, b⟩ := randn_ok (F := F) hm.bytes _ h
    exact S.built (c := .randn _ _ _) (some_run e) b rfl rfl (fun _ => ⟨rfl, hm⟩) (by simp [args]) (by have := hm.vol; omega)
  | @randnLike rnd v r f hh hm =>
    obtain ⟨o, i, H, hv⟩ := S.like hh
    obtain ⟨h', e, b⟩ := randn_ok (F := F) hm.bytes rnd h
    simp only [rename]
    rw [H.handle]
    refine S.built (c := .randnLike rnd _) ?_ b rfl rfl (at_here H ?_) hv (by have := hm.vol; omega)
    · show (do let i ← getT (env o); some' (Tensor.randn rnd i.view.sizes i.dtype) : M F _) h = _
      rw [M.bind_ok (getT_ok H.impl), H.sizes, H.dtype]
      exact some_run e
    · rw [H.sizes, H.dtype]; exact fun _ => ⟨rfl, hm⟩
  | @clone v r dt f hh hm =>
    obtain ⟨o, i, H, hv⟩ := S.like hh
    obtain ⟨h', i', hi, e, b⟩ := clone_ok H.denotes hm.bytes
    rw [H.impl] at hi
    obtain rfl := Option.some.inj hi
    simp only [rename]
    rw [H.handle]
    exact S.built (c := .clone _) (some_run e) b (by rw [isSome_ite, H.grad]) rfl (at_here H (by rw [H.sizes, H.dtype]; exact hm)) hv
      (by have := hm.vol; omega)
  | @contiguous v r dt f hh hm =>
    obtain ⟨o, i, H, hv⟩ := S.like hh
    obtain ⟨h', i', hi, e, b⟩ := clone_ok H.denotes hm.bytes
    rw [H.impl] at hi
    obtain rfl := Option.some.inj hi
    simp only [rename]
    rw [H.handle]
    exact S.built (c := .contiguous _) (some_run e) b (by rw [isSome_ite, H.grad]) rfl (at_here H (by rw [H.sizes, H.dtype]; exact hm)) hv
      (by have := hm.vol; omega)
  | @cmp op l r a b da db fa fb s hl hr hb hns hm =>
    obtain ⟨ol, il, Hl⟩ := S.get hl
    obtain ⟨or, ir, Hr⟩ := S.get hr
    obtain ⟨h', e, b⟩ := cmp_ok (op := op) Hl.denotes Hr.denotes hb hns (modest_of_f64 hm _).bytes
    simp only [rename]
    rw [Hl.handle, Hr.handle]
    refine S.built (c := .cmp _ _ _) (some_run e) b rfl rfl ?_ ?_ (by have := hm.vol; omega)
    · show Modest (maxShape (shapeOf h (env ol)) (shapeOf h (env or))) .f64
      rw [shape_here Hl, shape_here Hr, maxShape_eq hb hns]; exact hm
    · intro x hx
      simp only [args, List.mem_cons, List.not_mem_nil, or_false] at hx
      rcases hx with rfl | rfl
      · exact Hl.good
      · exact Hr.good
  | @sum v r dt f x hh hm hx =>
    obtain ⟨o, i, H, hv⟩ := S.like hh
    have ho := sumT_out H.impl H.reads (by rw [H.sizes]; have := hm.vol; omega)
    rw [H.sizes, H.dtype, hx] at ho
    obtain ⟨h', e, b⟩ := ho
    simp only [rename]
    rw [H.handle]
    exact S.built (c := .sum _) (some_run e) b (by rw [isSome_ite, H.grad]) rfl trivial hv scalar_vol
  | @mean v r dt f x hh hm hx =>
    obtain ⟨o, i, H, hv⟩ := S.like hh
    have ho := meanT_out H.impl H.reads (by rw [H.sizes]; have := hm.vol; omega)
    rw [H.sizes, H.dtype, hx] at ho
    obtain ⟨h', e, b⟩ := ho
    simp only [rename]
    rw [H.handle]
    exact S.built (c := .mean _) (some_run e) b (by rw [isSome_ite, H.grad]) rfl trivial hv scalar_vol
  | @arith op => cases op <;> exact hc.elim
  | _ => exact hc.elim

end
end INNC
