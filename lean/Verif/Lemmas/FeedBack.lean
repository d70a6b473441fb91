import Verif.Lemmas.FeedStep
import Verif.Lemmas.DerivCat
/-
The steps of back-propagation, one for each kind of operation, are memory safe and keep gradients.
-/
namespace INNC
open Spec Tensor
variable {F : Type} [FOps F] {h : Heap F}

/-! ### Accumulating into the gradient of an operand -/

/-- The tensor `t` exists and its elements are in an initialised storage. -/
def Lies (h : Heap F) (t : Nat) : Prop := ∃ i, h.ts[t]? = some i ∧ Sits h i

omit [FOps F] in
theorem Var.lies {t : Nat} (hv : Var h t) : Lies h t := by
  obtain ⟨i, hi, hs, _⟩ := hv; exact ⟨i, hi, hs⟩

omit [FOps F] in
theorem Lies.retains {h' : Heap F} {t : Nat} (hv : Lies h t) (hk : Retains h h') : Lies h' t := by
  obtain ⟨i, hi, hs⟩ := hv
  obtain ⟨i', hi', e1, e2, e3⟩ := hk.ts t i hi
  exact ⟨i', hi', (hs.retains hk).flags e1 e2 e3⟩

theorem feed_addLies {g w : Nat} (hl : Lies h g) (hr : Lies h w) : Feed h (Tensor.addAssign g w h) fun _ _ => True := by
  refine feed_of_mem (Q := fun _ _ => True) ?_ ?_
  · obtain ⟨li, hli, hls⟩ := hl
    obtain ⟨ri, hri, hrs⟩ := hr
    unfold Tensor.addAssign
    rw [M.bind_ok (getT_ok hli)]
    refine mem_bind mem_expect fun _ h1 k1 _ => ?_
    obtain ⟨ri', hri', f1, f2, f3⟩ := k1.ts w ri hri
    rw [M.bind_ok (getT_ok hri')]
    unfold tensorAdd
    rw [broadcastRange_max]
    have hlen := length_maxShape li.view.sizes ri'.view.sizes
    exact mem_mono (mem_zipLoop (hls.retains k1).toSites (hls.retains k1) ((hrs.retains k1).flags f1 f2 f3) rfl rfl rfl (by omega) (by omega) (by omega)
      fun x y => yields_arith .add) fun _ _ _ _ => trivial
  · unfold addAssign
    refine keeps_bind (keeps_getT _) fun i => keeps_bind (keeps_expect _) fun _ => keeps_bind (keeps_getT _) fun j => ?_
    exact swells_writes (keeps_tensorAdd trivial _ _ _ _)

omit [FOps F] in
theorem Feeds.flags {h' : Heap F} (hk : Feeds h h') (hf : FlagOK h) : FlagOK h' := fun x i' hi' hr => by
  cases hx : h.ts[x]? with
  | none =>
    have := (hk.new x i' hi' hx).2
    rw [hr] at this; cases this
  | some i =>
    obtain ⟨i2, e1, e2, _⟩ := hk.old x i hx
    obtain ⟨i3, f1, f2, _⟩ := hk.ret.ts x i hx
    rw [hi'] at e1 f1
    obtain rfl := Option.some.inj e1
    obtain rfl := Option.some.inj f1
    rw [f2]; exact hf x i hx (by rw [← e2]; exact hr)

/-- A tensor and its flag after a step. -/
theorem Feeds.at_ {h' : Heap F} (hk : Feeds h h') {x : Nat} {i : Impl} (hi : h.ts[x]? = some i) : ∃ i', h'.ts[x]? = some i' ∧
    i'.dtype = i.dtype ∧ i'.view = i.view ∧ i'.data = i.data ∧ i'.requiresGrad = i.requiresGrad ∧ i'.retainGrad = i.retainGrad ∧
    (∀ g, i.grad = some g → i'.grad = some g) ∧
    i'.gradFn.map (fun f => (f.kind, f.inputs)) = i.gradFn.map (fun f => (f.kind, f.inputs)) := by
  obtain ⟨i', e1, e2, e3, e4, e5⟩ := hk.old x i hi
  obtain ⟨i2, f1, f2, f3, f4⟩ := hk.ret.ts x i hi
  rw [e1] at f1
  obtain rfl := Option.some.inj f1
  exact ⟨i', e1, f2, f3, f4, e2, e3, e4, e5⟩

theorem feed_accNone {p : Nat} {i : Impl} (hi : h.ts[p]? = some i) (ho : Open h p) (hs : Seated h) :
    Feed h (tryAccGrad p none none h) fun _ h' => i.requiresGrad = true → Fed h' p := by
  unfold tryAccGrad
  rw [M.bind_ok (getT_ok hi)]
  cases hr : i.requiresGrad
  · exact feed_pure (by simp)
  · simp only [Bool.not_true, Bool.false_eq_true, if_false]
    refine feed_bind (feed_update hi ho hs) fun _ h1 k1 hq => ?_
    exact feed_pure fun _ => hq hr

theorem feed_accAdd {p w : Nat} {i : Impl} (hi : h.ts[p]? = some i) (ho : Open h p) (hs : Seated h) (hw : Lies h w) :
    Feed h (tryAccGrad p (some w) none h) fun _ h' => i.requiresGrad = true → Fed h' p := by
  unfold tryAccGrad
  rw [M.bind_ok (getT_ok hi)]
  cases hr : i.requiresGrad
  · exact feed_pure (by simp)
  · simp only [Bool.not_true, Bool.false_eq_true, if_false]
    refine feed_bind (feed_update hi ho hs) fun _ h1 k1 hq => ?_
    have hf := hq hr
    obtain ⟨i1, hi1, _⟩ := k1.at_ hi
    obtain ⟨g, j, e1, e2, e3, e4, e5, e6, e7⟩ := hf.sits (k1.slots hs) hi1
    rw [M.bind_ok (derefGrad_ok hi1 e1)]
    exact feed_mono (feed_addLies e7.lies (hw.retains k1.ret)) fun _ h2 k2 _ _ => k2.fed hf

theorem feed_accMul {p w o : Nat} {i : Impl} (hi : h.ts[p]? = some i) (ho : Open h p) (hs : Seated h) (hfl : FlagOK h) (hw : Lies h w)
    {oi : Impl} (hoi : h.ts[o]? = some oi) (hos : Sits h oi) (hof : ∀ wi, h.ts[w]? = some wi → wi.dtype.isFloat = false → oi.dtype.isFloat = true) :
    Feed h (tryAccGrad p (some w) (some o) h) fun _ h' => i.requiresGrad = true → Fed h' p := by
  unfold tryAccGrad
  rw [M.bind_ok (getT_ok hi)]
  cases hr : i.requiresGrad
  · exact feed_pure (by simp)
  · simp only [Bool.not_true, Bool.false_eq_true, if_false]
    refine feed_bind (feed_update hi ho hs) fun _ h1 k1 hq => ?_
    have hf := hq hr
    obtain ⟨i1, hi1, d1, _, _, r1, _⟩ := k1.at_ hi
    obtain ⟨g, j, e1, e2, e3, e4, e5, e6, e7⟩ := hf.sits (k1.slots hs) hi1
    obtain ⟨wi, hwi, hws⟩ := hw
    obtain ⟨wi1, hwi1, w1, w2, w3, _⟩ := k1.at_ hwi
    obtain ⟨oi1, hoi1, o1, o2, o3, _⟩ := k1.at_ hoi
    have hws1 := (hws.retains k1.ret).flags w1 w2 w3
    have hos1 := (hos.retains k1.ret).flags o1 o2 o3
    have hgf : j.dtype.isFloat = true := by rw [e3, d1]; exact hfl p i hi hr
    rw [M.bind_ok (getT_ok hwi1), M.bind_ok (derefGrad_ok hi1 e1)]
    cases hwf : wi1.dtype.isFloat
    · simp only [Bool.false_eq_true, if_false]
      exact feed_mono (feed_mulAddF e2 hoi1 hwi1 e5 hos1 hws1 hgf (by rw [o1]; exact hof wi hwi (by rw [← w1]; exact hwf))) fun _ h2 k2 _ _ => k2.fed hf
    · simp only [if_true]
      exact feed_mono (feed_mulAddF e2 hwi1 hoi1 e5 hws1 hos1 hgf hwf) fun _ h2 k2 _ _ => k2.fed hf

/-! ### Operations whose back-propagation reads elements -/

/-- The tensor `x` has the shape of the operands `ins` put behind one another along axis `d`, and elements in order. -/
def Stacked (h : Heap F) (x d : Nat) (ins : List Nat) : Prop :=
  ∃ (s ns : List Nat) (i : Impl), h.ts[x]? = some i ∧ i.view = Layout.contig (s.set d ns.sum) ∧ d < s.length ∧ ns.sum < 4611686018427387904 ∧
    vol (s.set d ns.sum) < 4611686018427387904 ∧ List.Forall₂ (fun y n => ∃ j, h.ts[y]? = some j ∧ j.view.sizes = s.set d n) ins ns

/-- What the back-propagation of the operation `f` of the tensor `x` reads is in good order. -/
def Node (h : Heap F) (x : Nat) (f : GradFn) : Prop :=
  match f.kind with
  | .mul => ∀ y ∈ f.inputs, Lies h y
  | .div => ∃ (a b : Nat) (ia ib ix : Impl), f.inputs = [a, b] ∧ h.ts[a]? = some ia ∧ h.ts[b]? = some ib ∧ h.ts[x]? = some ix ∧
      Sits h ib ∧ Sits h ix ∧ ia.view.sizes.length ≤ ix.view.sizes.length ∧ ib.view.sizes.length ≤ ix.view.sizes.length
  | .knownGrad k => Lies h k
  | .cat d => Stacked h x d f.inputs
  | _ => True

omit [FOps F] in
theorem Node.retains {h' : Heap F} {x : Nat} {f : GradFn} (hn : Node h x f) (hk : Retains h h') : Node h' x f := by
  unfold Node at *
  cases hf : f.kind <;> rw [hf] at hn <;> try trivial
  · exact fun y hy => (hn y hy).retains hk
  · obtain ⟨a, b, ia, ib, ix, h1, h2, h3, h4, h5, h6, h7, h8⟩ := hn
    obtain ⟨ia', a1, _, a2, _⟩ := hk.ts a ia h2
    obtain ⟨ib', b1, b2, b3, b4⟩ := hk.ts b ib h3
    obtain ⟨ix', x1, x2, x3, x4⟩ := hk.ts x ix h4
    exact ⟨a, b, ia', ib', ix', h1, a1, b1, x1, (h5.retains hk).flags b2 b3 b4, (h6.retains hk).flags x2 x3 x4, by rw [a2, x3]; exact h7,
      by rw [b3, x3]; exact h8⟩
  · obtain ⟨s, ns, i, h1, h2, h3, h4, h5, h6⟩ := hn
    obtain ⟨i', i1, _, i3, _⟩ := hk.ts x i h1
    refine ⟨s, ns, i', i1, i3.trans h2, h3, h4, h5, h6.imp fun y n ⟨j, hj, e⟩ => ?_⟩
    obtain ⟨j', j1, _, j3, _⟩ := hk.ts y j hj
    exact ⟨j', j1, by rw [j3]; exact e⟩
  · exact Lies.retains hn hk

omit [FOps F] in
theorem Node.congr {x : Nat} {f f' : GradFn} (hn : Node h x f) (h1 : f'.kind = f.kind) (h2 : f'.inputs = f.inputs) : Node h x f' := by
  unfold Node at *
  rw [h1, h2]; exact hn

omit [FOps F] in
theorem node_simple {x : Nat} {f : GradFn} (hs : Simple f.kind) : Node h x f := by
  unfold Node
  cases hf : f.kind <;> rw [hf] at hs <;> first | trivial | exact hs.elim

/-- What a step of back-propagation through the operation `f` of the tensor `t` needs. -/
structure Stepping (h : Heap F) (t : Nat) (f : GradFn) : Prop where
  seated : Seated h
  flags : FlagOK h
  node : Node h t f
  fed : Fed h t
  req : ∃ i, h.ts[t]? = some i ∧ i.requiresGrad = true
  opens : ∀ y ∈ f.inputs, Open h y
  modest : ∀ y ∈ f.inputs, ∃ i, h.ts[y]? = some i ∧ Modest i.view.sizes i.dtype
  div : ∀ a b, f.kind = .div → f.inputs = [a, b] → ∃ (ia ib i : Impl), h.ts[a]? = some ia ∧ h.ts[b]? = some ib ∧ h.ts[t]? = some i ∧
    ia.requiresGrad = true ∧ ib.requiresGrad = true ∧ ib.view.sizes = i.view.sizes

omit [FOps F] in
theorem Stepping.feeds [FOps F] {h' : Heap F} {t : Nat} {f : GradFn} (hs : Stepping h t f) (hk : Feeds h h') : Stepping h' t f where
  seated := hk.slots hs.seated
  flags := hk.flags hs.flags
  node := hs.node.retains hk.ret
  fed := hk.fed hs.fed
  req := by
    obtain ⟨i, hi, hr⟩ := hs.req
    obtain ⟨i', e, _, _, _, e2, _⟩ := hk.at_ hi
    exact ⟨i', e, e2.trans hr⟩
  opens := fun y hy => (hs.opens y hy).feeds hk
  modest := fun y hy => by
    obtain ⟨i, hi, hm⟩ := hs.modest y hy
    obtain ⟨i', e, e1, e2, _⟩ := hk.at_ hi
    exact ⟨i', e, by rw [e1, e2]; exact hm⟩
  div := fun a b hd hi => by
    obtain ⟨ia, ib, i, h1, h2, h3, h4, h5, h6⟩ := hs.div a b hd hi
    obtain ⟨ia', a1, _, _, _, a2, _⟩ := hk.at_ h1
    obtain ⟨ib', b1, _, b3, _, b2, _⟩ := hk.at_ h2
    obtain ⟨i', i1, _, i3, _⟩ := hk.at_ h3
    exact ⟨ia', ib', i', a1, b1, i1, a2.trans h4, b2.trans h5, by rw [b3, i3]; exact h6⟩

/-- The gradient of the result: a float tensor in good order. -/
theorem Stepping.out {t : Nat} {f : GradFn} (hs : Stepping h t f) : ∃ (g : Nat) (j i : Impl), getOutGrad t h = .ok g h ∧ h.ts[g]? = some j ∧ Sits h j ∧
    h.ts[t]? = some i ∧ i.dtype.isFloat = true ∧ j.dtype = i.dtype ∧ j.view.sizes = i.view.sizes ∧ Sits h { i with data := j.data } := by
  obtain ⟨i, hi, hr⟩ := hs.req
  obtain ⟨g, j, e1, e2, e3, e4, e5, e6, e7⟩ := hs.fed.sits hs.seated hi
  exact ⟨g, j, i, derefGrad_ok hi e1, e2, e5, hi, hs.flags t i hi hr, e3, e4, e6⟩

/-- All operands that require grad have an allocated gradient. -/
def FedAll (l : List Nat) (h h' : Heap F) : Prop := ∀ y ∈ l, ∀ i, h.ts[y]? = some i → i.requiresGrad = true → Fed h' y

/-- The gradient of `y` is allocated if it requires grad. -/
def FedIf (y : Nat) (h h' : Heap F) : Prop := ∀ i, h.ts[y]? = some i → i.requiresGrad = true → Fed h' y

theorem feed_if {y : Nat} {i : Impl} {x : M F Unit} (hi : h.ts[y]? = some i) (hx : Feed h (x h) fun _ h' => i.requiresGrad = true → Fed h' y) :
    Feed h (x h) fun _ h' => FedIf y h h' := feed_mono hx fun _ h' _ hq j hj hr => by
  rw [hi] at hj
  obtain rfl := Option.some.inj hj
  exact hq hr

theorem feed_two {a b : Nat} {x y : M F Unit} (hx : Feed h (x h) fun _ h' => FedIf a h h')
    (hy : ∀ h1, Feeds h h1 → Feed h1 (y h1) fun _ h' => FedIf b h1 h') : Feed h ((x >>= fun _ => y) h) fun _ h' => FedAll [a, b] h h' := by
  refine feed_bind hx fun _ h1 k1 q1 => ?_
  refine feed_mono (hy h1 k1) fun _ h2 k2 q2 z hz i hi hr => ?_
  rcases List.mem_cons.1 hz with rfl | hz
  · exact k2.fed (q1 i hi hr)
  · obtain rfl := List.mem_singleton.1 hz
    obtain ⟨i1, e1, _, _, _, e2, _⟩ := k1.at_ hi
    exact q2 i1 e1 (e2.trans hr)

theorem feed_one {a : Nat} {x : M F Unit} (hx : Feed h (x h) fun _ h' => FedIf a h h') : Feed h (x h) fun _ h' => FedAll [a] h h' :=
  feed_mono hx fun _ h' _ q z hz i hi hr => by
    obtain rfl := List.mem_singleton.1 hz
    exact q i hi hr

theorem Stepping.input {t : Nat} {f : GradFn} (hs : Stepping h t f) {k y : Nat} (hk : f.inputs[k]? = some y) :
    inputAt f k h = .ok y h ∧ (∃ i, h.ts[y]? = some i) ∧ Open h y := by
  have hm := List.mem_of_getElem? hk
  obtain ⟨i, hi, _⟩ := hs.opens y hm
  refine ⟨?_, ⟨i, hi⟩, hs.opens y hm⟩
  unfold inputAt vecAt; rw [hk]; rfl

theorem Stepping.addTo {t y : Nat} {f : GradFn} (hs : Stepping h t f) (hy : y ∈ f.inputs) {w : Nat} (hw : Lies h w) :
    Feed h (tryAccGrad y (some w) none h) fun _ h' => FedIf y h h' := by
  obtain ⟨i, hi, _⟩ := hs.opens y hy
  exact feed_if hi (feed_accAdd hi (hs.opens y hy) hs.seated hw)

theorem Stepping.mulTo {t y : Nat} {f : GradFn} (hs : Stepping h t f) (hy : y ∈ f.inputs) {w o : Nat} (hw : Lies h w)
    {oi : Impl} (hoi : h.ts[o]? = some oi) (hos : Sits h oi) (hof : ∀ wi, h.ts[w]? = some wi → wi.dtype.isFloat = false → oi.dtype.isFloat = true) :
    Feed h (tryAccGrad y (some w) (some o) h) fun _ h' => FedIf y h h' := by
  obtain ⟨i, hi, _⟩ := hs.opens y hy
  exact feed_if hi (feed_accMul hi (hs.opens y hy) hs.seated hs.flags hw hoi hos hof)

omit [FOps F] in
theorem pair_of_length {l : List Nat} (hl : l.length = 2) : ∃ a b, l = [a, b] := by
  match l, hl with
  | [a, b], _ => exact ⟨a, b, rfl⟩

omit [FOps F] in
theorem single_of_length {l : List Nat} (hl : l.length = 1) : ∃ a, l = [a] := by
  match l, hl with
  | [a], _ => exact ⟨a, rfl⟩

section kinds
variable {t : Nat} {f : GradFn}

theorem feed_stepAdd (hs : Stepping h t f) (hk : f.kind = .add) (hl : f.inputs.length = 2) :
    Feed h (stepBack t f h) fun _ h' => FedAll f.inputs h h' := by
  obtain ⟨a, b, hin⟩ := pair_of_length hl
  unfold stepBack; rw [hk]
  simp only
  rw [M.bind_ok (hs.input (k := 0) (y := a) (by rw [hin]; rfl)).1]
  obtain ⟨g, j, i, e1, e2, e3, _⟩ := hs.out
  rw [M.bind_ok e1, hin]
  refine feed_two (hs.addTo (by rw [hin]; simp) ⟨j, e2, e3⟩) fun h1 k1 => ?_
  have hs1 := hs.feeds k1
  rw [M.bind_ok (hs1.input (k := 1) (y := b) (by rw [hin]; rfl)).1]
  obtain ⟨g1, j1, i1, e1, e2, e3, _⟩ := hs1.out
  rw [M.bind_ok e1]
  exact hs1.addTo (by rw [hin]; simp) ⟨j1, e2, e3⟩

omit [FOps F] in
theorem FedIf.back {y : Nat} {h1 h2 : Heap F} (hk : Feeds h h1) (hq : FedIf y h1 h2) : FedIf y h h2 := fun i hi hr => by
  obtain ⟨i1, e1, e2, _⟩ := hk.old y i hi
  exact hq i1 e1 (e2.trans hr)

theorem feed_then {α : Type} {y : Nat} {x : M F α} {k : α → M F Unit} {Q : α → Heap F → Prop} (hx : Feed h (x h) Q)
    (hk : ∀ a h', Feeds h h' → Q a h' → Feed h' (k a h') fun _ h2 => FedIf y h' h2) : Feed h ((x >>= k) h) fun _ h2 => FedIf y h h2 :=
  feed_bind (R := fun _ h2 => FedIf y h h2) hx fun a h' k1 hq => feed_mono (hk a h' k1 hq) fun _ h2 _ q => q.back k1

theorem feed_stepSub (hs : Stepping h t f) (hk : f.kind = .sub) (hl : f.inputs.length = 2) :
    Feed h (stepBack t f h) fun _ h' => FedAll f.inputs h h' := by
  obtain ⟨a, b, hin⟩ := pair_of_length hl
  unfold stepBack; rw [hk]
  simp only
  rw [M.bind_ok (hs.input (k := 0) (y := a) (by rw [hin]; rfl)).1]
  obtain ⟨g, j, i, e1, e2, e3, _⟩ := hs.out
  rw [M.bind_ok e1, hin]
  refine feed_two (hs.addTo (by rw [hin]; simp) ⟨j, e2, e3⟩) fun h1 k1 => ?_
  have hs1 := hs.feeds k1
  have hneg : (Val.i (-1) : Val F).HasType .i32 := by constructor <;> decide
  refine feed_then (Q := fun m h' => Fine (F := F) .i32 [] m h') (feed_of_mem (mem_createScalar hneg) (swells_createScalar _ _)) fun m h2 k2 hm => ?_
  have hs2 := hs1.feeds k2
  rw [M.bind_ok (hs2.input (k := 1) (y := b) (by rw [hin]; rfl)).1]
  obtain ⟨g1, j1, i1, e1, e2, e3, e4, e5, e6, _⟩ := hs2.out
  rw [M.bind_ok e1]
  obtain ⟨im, him, _, _, hms⟩ := hm
  refine hs2.mulTo (by rw [hin]; simp) ⟨j1, e2, e3⟩ him hms fun wi hwi hf => ?_
  rw [e2] at hwi
  obtain rfl := Option.some.inj hwi
  rw [e6, e5] at hf; cases hf

theorem feed_stepMul (hs : Stepping h t f) (hk : f.kind = .mul) (hl : f.inputs.length = 2) :
    Feed h (stepBack t f h) fun _ h' => FedAll f.inputs h h' := by
  obtain ⟨a, b, hin⟩ := pair_of_length hl
  unfold stepBack; rw [hk]
  simp only
  have hn := hs.node
  unfold Node at hn; rw [hk] at hn
  simp only at hn
  rw [M.bind_ok (hs.input (k := 0) (y := a) (by rw [hin]; rfl)).1, M.bind_ok (hs.input (k := 1) (y := b) (by rw [hin]; rfl)).1]
  obtain ⟨g, j, i, e1, e2, e3, e4, e5, e6, _⟩ := hs.out
  rw [M.bind_ok e1, hin]
  refine feed_two (hs.mulTo (by rw [hin]; simp) (hn b (by rw [hin]; simp)) e2 e3 fun _ _ _ => by rw [e6]; exact e5) fun h1 k1 => ?_
  have hs1 := hs.feeds k1
  rw [M.bind_ok (hs1.input (k := 1) (y := b) (by rw [hin]; rfl)).1, M.bind_ok (hs1.input (k := 0) (y := a) (by rw [hin]; rfl)).1]
  obtain ⟨g1, j1, i1, e1, e2, e3, e4, e5, e6, _⟩ := hs1.out
  rw [M.bind_ok e1]
  exact hs1.mulTo (by rw [hin]; simp) ((hn a (by rw [hin]; simp)).retains k1.ret) e2 e3 fun _ _ _ => by rw [e6]; exact e5

theorem feed_stepSum (hs : Stepping h t f) (hk : f.kind = .sum) (hl : f.inputs.length = 1) :
    Feed h (stepBack t f h) fun _ h' => FedAll f.inputs h h' := by
  obtain ⟨a, hin⟩ := single_of_length hl
  unfold stepBack; rw [hk]
  simp only
  rw [M.bind_ok (hs.input (k := 0) (y := a) (by rw [hin]; rfl)).1, hin]
  obtain ⟨i, hi, hm⟩ := hs.modest a (by rw [hin]; simp)
  have hone : (Val.i 1 : Val F).HasType .i8 := by constructor <;> decide
  refine feed_one (feed_then (Q := fun m h' => Fine (F := F) i.dtype i.view.sizes m h') (feed_of_mem ?_ (swells_onesLike a)) fun m h2 k2 hm2 => ?_)
  · unfold onesLike
    rw [M.bind_ok (getT_ok hi)]
    exact mem_fillNew hone hm
  have hs2 := hs.feeds k2
  obtain ⟨g1, j1, i1, e1, e2, e3, e4, e5, e6, _⟩ := hs2.out
  rw [M.bind_ok e1]
  exact hs2.mulTo (by rw [hin]; simp) (hm2.var hm).lies e2 e3 fun _ _ _ => by rw [e6]; exact e5

theorem feed_stepMean (hs : Stepping h t f) (hk : f.kind = .mean) (hl : f.inputs.length = 1) :
    Feed h (stepBack t f h) fun _ h' => FedAll f.inputs h h' := by
  obtain ⟨a, hin⟩ := single_of_length hl
  unfold stepBack; rw [hk]
  simp only
  rw [M.bind_ok (hs.input (k := 0) (y := a) (by rw [hin]; rfl)).1, hin]
  obtain ⟨i, hi, hm⟩ := hs.modest a (by rw [hin]; simp)
  rw [M.bind_ok (getT_ok hi)]
  refine feed_one (feed_then (Q := fun m h' => Fine (F := F) i.dtype i.view.sizes m h') (feed_of_mem (mem_fillNew ?_ hm) (swells_full _ _ _ _)) fun m h2 k2 hm2 => ?_)
  · show DType.isFloat .f64 = true
    rfl
  exact (hs.feeds k2).addTo (by rw [hin]; simp) (hm2.var hm).lies

theorem feed_stepClone (hs : Stepping h t f) (hk : f.kind = .clone) (hl : f.inputs.length = 1) :
    Feed h (stepBack t f h) fun _ h' => FedAll f.inputs h h' := by
  obtain ⟨a, hin⟩ := single_of_length hl
  unfold stepBack; rw [hk]
  simp only
  rw [M.bind_ok (hs.input (k := 0) (y := a) (by rw [hin]; rfl)).1, hin]
  obtain ⟨g, j, i, e1, e2, e3, _⟩ := hs.out
  rw [M.bind_ok e1]
  exact feed_one (hs.addTo (by rw [hin]; simp) ⟨j, e2, e3⟩)

theorem feed_stepNoBack (hs : Stepping h t f) (hk : f.kind = .noBack) (hl : f.inputs.length = 1) :
    Feed h (stepBack t f h) fun _ h' => FedAll f.inputs h h' := by
  obtain ⟨a, hin⟩ := single_of_length hl
  unfold stepBack; rw [hk]
  simp only
  rw [M.bind_ok (hs.input (k := 0) (y := a) (by rw [hin]; rfl)).1, hin]
  have ho := hs.opens a (by rw [hin]; simp)
  obtain ⟨i, hi, _⟩ := id ho
  exact feed_one (feed_if hi (feed_accNone hi ho hs.seated))

theorem feed_stepKnown (hs : Stepping h t f) {k : Nat} (hk : f.kind = .knownGrad k) (hl : f.inputs.length = 1) :
    Feed h (stepBack t f h) fun _ h' => FedAll f.inputs h h' := by
  obtain ⟨a, hin⟩ := single_of_length hl
  unfold stepBack; rw [hk]
  simp only
  have hn := hs.node
  unfold Node at hn; rw [hk] at hn
  simp only at hn
  rw [M.bind_ok (hs.input (k := 0) (y := a) (by rw [hin]; rfl)).1, hin]
  obtain ⟨g, j, i, e1, e2, e3, e4, e5, e6, _⟩ := hs.out
  rw [M.bind_ok e1]
  exact feed_one (hs.mulTo (by rw [hin]; simp) hn e2 e3 fun _ _ _ => by rw [e6]; exact e5)

theorem feed_stepDiv (hs : Stepping h t f) (hk : f.kind = .div) :
    Feed h (stepBack t f h) fun _ h' => FedAll f.inputs h h' := by
  have hn := hs.node
  unfold Node at hn; rw [hk] at hn
  simp only at hn
  obtain ⟨a, b, ia, ib, ix, hin, ha, hb, hx, sb, sx, la, lb⟩ := hn
  obtain ⟨ia', ib', ix', ha', hb', hx', ra, rb, hsz⟩ := hs.div a b hk hin
  rw [ha] at ha'; obtain rfl := Option.some.inj ha'
  rw [hb] at hb'; obtain rfl := Option.some.inj hb'
  rw [hx] at hx'; obtain rfl := Option.some.inj hx'
  unfold stepBack; rw [hk]
  simp only
  rw [M.bind_ok (hs.input (k := 0) (y := a) (by rw [hin]; rfl)).1, M.bind_ok (hs.input (k := 1) (y := b) (by rw [hin]; rfl)).1, hin]
  have mema : a ∈ f.inputs := by rw [hin]; simp
  have memb : b ∈ f.inputs := by rw [hin]; simp
  refine feed_bind (feed_update ha (hs.opens a mema) hs.seated) fun _ h1 k1 q1 => ?_
  have fa := q1 ra
  have hs1 := hs.feeds k1
  obtain ⟨ia1, ha1, a1, a2, a3, a4, _⟩ := k1.at_ ha
  obtain ⟨ib1, hb1, b1, b2, b3, b4, _⟩ := k1.at_ hb
  obtain ⟨g, j, f1, f2, f3, f4, f5, _, _⟩ := fa.sits hs1.seated ha1
  rw [M.bind_ok (derefGrad_ok ha1 f1)]
  obtain ⟨og, oj, oi, e1, e2, e3, e4, e5, e6, e7, _⟩ := hs1.out
  rw [M.bind_ok e1]
  obtain ⟨ix1, hx1, x1, x2, x3, _⟩ := k1.at_ hx
  rw [e4] at hx1; obtain rfl := Option.some.inj hx1
  have haf := hs.flags a ia ha ra
  have hbf := hs.flags b ib hb rb
  refine feed_bind (Q := fun _ _ => True) ?_ fun _ h2 k2 _ => ?_
  · unfold divBackNum
    rw [M.bind_ok (getT_ok f2), M.bind_ok (getT_ok e2), M.bind_ok (getT_ok hb1), if_pos (by rw [f3, a1, haf, e6, e5]; rfl)]
    refine feed_of_mem (mem_divNum f5 e3 ((sb.retains k1.ret).flags b1 b2 b3) rfl rfl rfl ?_ ?_) (swells_writes (keeps_tensorDivBackNum trivial _ _ _ _ _))
    · rw [f4, e7, a2, x2]; exact la
    · rw [e7, b2, x2]; exact lb
  have k2' := k1.trans k2
  have hs2 := hs1.feeds k2
  obtain ⟨ib2, hb2, c1, c2, c3, c4, _⟩ := k2'.at_ hb
  refine feed_bind (feed_update hb2 (hs2.opens b memb) hs2.seated) fun _ h3 k3 q3 => ?_
  have fb := q3 (c4.trans rb)
  have k3' := k2'.trans k3
  have hs3 := hs2.feeds k3
  obtain ⟨ib3, hb3, d1, d2, d3, d4, _⟩ := k3'.at_ hb
  obtain ⟨ix3, hx3, y1, y2, y3, _⟩ := k3'.at_ hx
  obtain ⟨g3, j3, p1, p2, p3, p4, p5, _, _⟩ := fb.sits hs3.seated hb3
  obtain ⟨og, oj, oi', e1', e2, e3, e4', e5', e6, e7, _⟩ := hs3.out
  rw [hx3] at e4'; obtain rfl := Option.some.inj e4'
  refine feed_mono (Q := fun _ _ => True) ?_ fun _ h4 k4 _ z hz i hi hr => ?_
  · unfold divBackDen
    rw [M.bind_ok (getT_ok hb3), M.bind_ok (getT_ok hx3), if_pos (by rw [d1, hbf, e5']; rfl)]
    rw [M.bind_ok (derefGrad_ok hb3 p1), M.bind_ok e1', M.bind_ok (getT_ok p2), M.bind_ok (getT_ok e2)]
    refine feed_of_mem (mem_divDen p5 e3 ((sx.retains k3'.ret).flags y1 y2 y3) ((sb.retains k3'.ret).flags d1 d2 d3) p3.symm e6.symm rfl rfl ?_ e7 ?_)
      (swells_writes (keeps_tensorDivBackDen trivial _ _ _ _ _))
    · rw [p4, d2, y2]; exact hsz
    · rw [d2, y2]; exact hsz
  · rcases List.mem_cons.1 hz with rfl | hz
    · exact k4.fed (k3.fed (k2.fed fa))
    · obtain rfl := List.mem_singleton.1 hz
      exact k4.fed fb

/-! ### Concatenation -/

/-- A part of the gradient of a concatenation. -/
theorem sits_part {h : Heap F} {i r : Impl} {d o n K : Nat} {s : List Nat} {st : Int} (e8 : Sits h i) (hiv : i.view = Layout.contig (s.set d K)) (hd : d < s.length)
    (hvol : vol (s.set d K) < 4611686018427387904) (hle : o + n ≤ K) (hstd : (contigStrides (s.set d K))[d]? = some st)
    (h1 : r.dtype = i.dtype) (h2 : r.data = i.data) (h3 : r.view.sizes = s.set d n) (h4 : r.view.strides = contigStrides (s.set d K))
    (h5 : r.view.offset = wrapU (o * st)) : Sits h r := by
  refine e8.view h1 h2 ?_ (by rw [h5]; exact wrapU_lt _) fun idx hb => ?_
  · rw [h4, length_contigStrides, h3, List.length_set, List.length_set]
  · rw [h3] at hb
    have hb' : InBox (s.set d K) (idx.modify d (· + o)) :=
      inBox_modify (n := n) (K := K) (by rw [List.set_set]; exact hb) (List.getElem?_set_self hd) (by omega)
    have hbi : InBox i.view.sizes (idx.modify d (· + o)) := by rw [hiv]; exact hb'
    refine ⟨_, hbi, ?_⟩
    obtain ⟨so, co, c1, c2, c3, c4, c5⟩ := e8.cells
    obtain ⟨p, hp, hcp⟩ := c5 _ hbi
    have hclen := Nat.le_mul_of_pos_right co.length (DType.size_pos i.dtype)
    have hrm := contigStrides_eq_rm (zero_notMem_of_vol (vol_pos_of_inBox hb')) (by omega)
    have hlen : d < idx.length := by rw [hb.length, List.length_set]; exact hd
    rw [hp]
    unfold position at hp ⊢
    rw [hiv] at hp
    simp only [Layout.contig] at hp
    rw [dot_modify hstd hlen, hrm] at hp
    obtain ⟨m, rfl⟩ := rmStrides_nonneg (by rw [← hrm]; exact hstd)
    have h0 := dot_rm_nonneg (s.set d K) idx
    have hmk : (m : Int) * (o : Int) = ((m * o : Nat) : Int) := by push_cast; rfl
    rw [hmk] at hp
    rw [h4, h5, hrm, mul_comm (o : Int) (m : Int), hmk, wrapU_natCast (by simp only [Nat.cast_zero, zero_add] at hp; omega)]
    simp only [Nat.cast_zero, zero_add] at hp
    omega

theorem feed_catGo {d K : Nat} {s : List Nat} (hd : d < s.length) (hK : K < 4611686018427387904)
    (hvol : vol (s.set d K) < 4611686018427387904) (rest : List Nat) :
    ∀ (ns : List Nat) (o : Nat) (h : Heap F), Stepping h t f → (∀ y ∈ rest, y ∈ f.inputs) →
      (∃ i, h.ts[t]? = some i ∧ i.view = Layout.contig (s.set d K)) →
      List.Forall₂ (fun y n => ∃ j, h.ts[y]? = some j ∧ j.view.sizes = s.set d n) rest ns → o + ns.sum = K →
      Feed h (catBackGo t d o rest h) fun _ h' => FedAll rest h h' := by
  induction rest with
  | nil => exact fun _ _ h _ _ _ _ _ => feed_pure fun y hy => by simp at hy
  | cons y rest ih =>
    rintro ns o h hs hsub ⟨i, hi, hiv⟩ hall hle
    cases hall with
    | @cons _ n _ ns hy hall =>
    obtain ⟨jy, hjy, hsz⟩ := hy
    rw [List.sum_cons] at hle
    unfold catBackGo
    rw [M.bind_ok (getT_ok hi), M.bind_ok (getT_ok hjy)]
    have hst : i.view.strides = contigStrides (s.set d K) := by rw [hiv]; rfl
    obtain ⟨st, hstd⟩ : ∃ st, (contigStrides (s.set d K))[d]? = some st :=
      ⟨_, List.getElem?_eq_getElem (by rw [length_contigStrides, List.length_set]; exact hd)⟩
    rw [M.bind_ok (x := M.lift (vecAt i.view.strides d)) (a := st) (h' := h) (by unfold vecAt; rw [hst, hstd]; rfl)]
    obtain ⟨g, j, i', e1, e2, e3, e4, e5, e6, e7, e8⟩ := hs.out
    rw [hi] at e4; obtain rfl := Option.some.inj e4
    rw [M.bind_ok e1, M.bind_ok (getT_ok e2)]
    have hcr : Feed h ((createOn i.dtype ⟨jy.view.sizes, i.view.strides, wrapU (o * st)⟩ j.data : M F Nat) h) fun r h' => Lies h' r := by
      have hret : Retains h { h with ts := h.ts ++ [(⟨i.dtype, ⟨jy.view.sizes, i.view.strides, wrapU (o * st)⟩, j.data, none, false, false, none⟩ : Impl)] } :=
        ⟨fun x k hk => ⟨k, getElem?_append_some hk _, rfl, rfl, rfl⟩, (Retains.refl h).st⟩
      exact ⟨Swells.feeds (swells_createOn (F := F) i.dtype ⟨jy.view.sizes, i.view.strides, wrapU (o * st)⟩ j.data h) hret, _,
        List.getElem?_concat_length, sits_part (e8.retains hret) hiv hd hvol (n := n) (by omega) hstd rfl rfl hsz hst rfl⟩
    refine feed_bind hcr fun r h1 k1 hr => ?_
    have hs1 := hs.feeds k1
    refine feed_bind (hs1.addTo (hsub y (by simp)) hr) fun _ h2 k2 q2 => ?_
    have hs2 := hs1.feeds k2
    have k2' := k1.trans k2
    obtain ⟨jy2, hjy2, _, v2, _⟩ := k2'.at_ hjy
    obtain ⟨i2, hi2, _, w2, _⟩ := k2'.at_ hi
    rw [M.bind_ok (getT_ok hjy2)]
    rw [M.bind_ok (x := M.lift (vecAt jy2.view.sizes d)) (a := n) (h' := h2) (by
        unfold vecAt; rw [v2, hsz, List.getElem?_set_self hd]; rfl)]
    have hon : ((o : Int) + (n : Int)) = ((o + n : Nat) : Int) := by push_cast; rfl
    rw [hon, wrapU_natCast (by omega)]
    have hall2 : List.Forall₂ (fun y n => ∃ j, h2.ts[y]? = some j ∧ j.view.sizes = s.set d n) rest ns := hall.imp fun z m ⟨q, hq, e⟩ => by
      obtain ⟨q', hq', _, e', _⟩ := k2'.at_ hq
      exact ⟨q', hq', by rw [e']; exact e⟩
    refine feed_mono (ih ns (o + n) h2 hs2 (fun z hz => hsub z (by simp [hz])) ⟨i2, hi2, w2.trans hiv⟩ hall2 (by omega)) ?_
    intro _ h3 k3 q3 z hz iz hiz hrz
    · rcases List.mem_cons.1 hz with rfl | hz
      · exact k3.fed (q2.back k1 iz hiz hrz)
      · obtain ⟨iz2, hiz2, _, _, _, e, _⟩ := k2'.at_ hiz
        exact q3 z hz iz2 hiz2 (e.trans hrz)

/-- One step of back-propagation. -/
theorem feed_step (hs : Stepping h t f) (ha : Arity f.kind f.inputs.length) : Feed h (stepBack t f h) fun _ h' => FedAll f.inputs h h' := by
  cases hk : f.kind with
  | add => exact feed_stepAdd hs hk (by rw [hk] at ha; exact ha)
  | sub => exact feed_stepSub hs hk (by rw [hk] at ha; exact ha)
  | mul => exact feed_stepMul hs hk (by rw [hk] at ha; exact ha)
  | div => exact feed_stepDiv hs hk
  | sum => exact feed_stepSum hs hk (by rw [hk] at ha; exact ha)
  | mean => exact feed_stepMean hs hk (by rw [hk] at ha; exact ha)
  | noBack => exact feed_stepNoBack hs hk (by rw [hk] at ha; exact ha)
  | clone => exact feed_stepClone hs hk (by rw [hk] at ha; exact ha)
  | knownGrad k => exact feed_stepKnown hs hk (by rw [hk] at ha; exact ha)
  | cat d =>
    have hn := hs.node
    unfold Node at hn; rw [hk] at hn
    obtain ⟨s, ns, i, h1, h2, h3, h4, h5, h6⟩ := hn
    unfold stepBack; rw [hk]
    exact feed_catGo h3 h4 h5 f.inputs ns 0 h hs (fun _ h => h) ⟨i, h1, h2⟩ h6 (by omega)

end kinds

end INNC
