import Verif.Lemmas.FeedLoop
/-
Calls that make no view keep the gradients and the graph in good order.
-/
namespace INNC
open Spec Tensor
variable {F : Type} [FOps F] {h : Heap F}

omit [FOps F] in
theorem NK.idles {P : Nat → BackKind → List Nat → Prop} {R : Nat → Prop} {h' : Heap F} (hk : NK P R h h') : Idles h h' := fun d s hs hb =>
  ⟨s, hk.idle d s hs hb, rfl, rfl, fun c hc => by { rw [hb] at hc; cases hc }⟩

omit [FOps F] in
theorem Ordered.nk {P : Nat → BackKind → List Nat → Prop} {R : Nat → Prop} {h' : Heap F} (ho : Ordered h) (hr : Retains h h') (hk : NK P R h h')
    (hf : FlagOK h') (hP : ∀ x f, opOf h' x = some f → P x f.kind f.inputs → Node h' x f) (hR : ∀ x, R x → Var h' x) : Ordered h' := by
  refine ⟨fun x g i' hi' hg => ?_, hf, fun x f hx => ?_, fun x i' hi' hq => ?_⟩
  · obtain ⟨i, hi, hig⟩ := hk.grads x g i' hi' hg
    obtain ⟨i2, e, e1, e2, _⟩ := hr.ts x i hi
    rw [hi'] at e
    obtain rfl := Option.some.inj e
    exact (ho.seated x g i hi hig).keep e1 e2 hr hk.idles
  · rcases hk.nodes x f hx with ⟨f0, e0, e1, e2⟩ | h1 | h1
    · exact ((ho.nodes x f0 e0).retains hr).congr e1 e2
    · exact node_simple h1
    · exact hP x f hx h1
  · rcases hk.req x i' hi' hq with ⟨i, hi, e⟩ | h1
    · exact (ho.reqs x i hi e).retains hr
    · exact hR x h1

/-- The operations that the result of a call can have, except those whose back-propagation reads gradients only. -/
def NewOp (h : Heap F) (c : Call F) (k : BackKind) (ins : List Nat) : Prop :=
  match c with
  | .mul l r => k = .mul ∧ ins = [l, r]
  | .div l r => k = .div ∧ ins = [l, r]
  | .abs t | .max t | .min t => requiresGrad h t = true ∧ ∃ g, k = .knownGrad g
  | .cat ts d => k = .cat d ∧ ins = ts
  | _ => False

/-- The calls treated here. -/
def Steady : Call F → Prop
  | .slice _ _ | .transpose _ _ _ | .reshape _ _ | .reshapeAs _ _ | .empty _ _ | .release _ | .backward _ | .grad _ => False
  | _ => True

def NewReq (c : Call F) (x : Nat) : Prop := ∃ b, c = .setRequiresGrad x b

def CallNK (h : Heap F) (c : Call F) (o : Out (Heap F) (Option Nat)) : Prop :=
  match o with
  | .ok o h' => NK (fun x k ins => o = some x ∧ NewOp h c k ins) (fun x => o = some x ∨ NewReq c x) h h'
  | .throw _ h' => NK (fun _ _ _ => False) (NewReq c) h h'
  | .ub _ => True

theorem nk_call {c : Call F} (hc : Steady c) (hv : ∀ a ∈ args c, Var h a) : CallNK h c (c.run h) := by
  have S : ∀ {x : M F Nat} {K : BackKind → List Nat → Prop}, Adds K x h → (∀ k ins, K k ins → NewOp h c k ins) → CallNK h c (some' x h) := fun {x K} hx hK => by
    unfold Adds at hx
    unfold some'
    rw [M.bind_def]
    cases hxh : x h with
    | ok r h' =>
      rw [hxh] at hx
      exact hx.mono (fun y k ins hy => ⟨by rw [hy.1], hK k ins hy.2⟩) fun y hy => .inl (by rw [hy])
    | throw e h' =>
      rw [hxh] at hx
      exact hx.mono (fun _ _ _ h => h) fun _ h => h.elim
    | ub u => trivial
  have B : ∀ {x : M F (Option Nat)}, Keeps (NK (fun _ _ _ => False) (NewReq c)) x → CallNK h c (x h) := fun {x} hx => by
    have := hx h
    cases hxh : x h with
    | ok r h' =>
      rw [hxh] at this
      exact NK.mono this (fun _ _ _ h => h.elim) fun _ h => .inr h
    | throw e h' =>
      rw [hxh] at this
      exact this
    | ub u => trivial
  have E : ∀ {x : M F Nat}, Keeps (NK (fun _ _ _ => False) (NewReq c)) x → CallNK h c (some' x h) := fun hx =>
    B (keeps_bind hx fun _ => keeps_pure _)
  have N : ∀ {α : Type} {x : M F α}, Keeps (NK (fun _ _ _ => False) (NewReq c)) x → CallNK h c (none' x h) := fun hx =>
    B (keeps_bind hx fun _ => keeps_pure _)
  have one : ∀ {t : Nat}, t ∈ args c → ∃ i, h.ts[t]? = some i := fun {t} ht => by
    obtain ⟨i, hi, _⟩ := hv t ht; exact ⟨i, hi⟩
  have none' : ∀ k ins, noK k ins → NewOp h c k ins := fun _ _ h => h.elim
  cases c with
  | scalar dt v => exact E (nk_createScalar _ _)
  | empty => exact hc.elim
  | init tree => exact B (nk_ofInit _)
  | ones s dt => exact E (nk_ones _ _)
  | zeros s dt => exact E (nk_zeros _ _)
  | onesLike t => exact E (nk_onesLike _)
  | zerosLike t => exact E (nk_zerosLike _)
  | fullInt s n dt => exact E (nk_full _ _ _ _)
  | fullReal s x dt => exact E (nk_full _ _ _ _)
  | eye n m dt => exact E (nk_eye _ _ _)
  | fromBlob data s dt => exact E (nk_fromBlob _ _ _)
  | randn rnd s dt => exact E (nk_randn _ _ _)
  | randnLike rnd t => exact B (keeps_bind (keeps_getT _) fun i => keeps_bind (nk_randn _ _ _) fun _ => keeps_pure _)
  | slice t s => exact hc.elim
  | transpose t a b => exact hc.elim
  | reshape t sizes => exact hc.elim
  | reshapeAs t u => exact hc.elim
  | detach t => exact E (nk_detach _)
  | clone t => exact S (adds_clone t h) none'
  | contiguous t => exact S (adds_clone t h) none'
  | toType t dt => exact S (adds_toType t dt h) none'
  | add l r => exact S (adds_addT l r h) none'
  | sub l r => exact S (adds_subT l r h) none'
  | mul l r => exact S (adds_mulT l r h) fun _ _ h => h
  | div l r => exact S (adds_divT l r h) fun _ _ h => h
  | pos t => exact E (keeps_pure _)
  | neg t => exact S (adds_negT t h) none'
  | cmp op l r => exact E (nk_cmp _ _ _)
  | sum t => exact S (adds_sumT t h) none'
  | mean t => exact S (adds_meanT t h) none'
  | abs t =>
    obtain ⟨i, hi⟩ := one (t := t) (by simp [args])
    exact S (adds_absT hi) fun k ins hk => ⟨by unfold requiresGrad; rw [hi]; exact hk.1, hk.2⟩
  | max t =>
    obtain ⟨i, hi⟩ := one (t := t) (by simp [args])
    exact S (adds_extreme hi) fun k ins hk => ⟨by unfold requiresGrad; rw [hi]; exact hk.1, hk.2⟩
  | min t =>
    obtain ⟨i, hi⟩ := one (t := t) (by simp [args])
    exact S (adds_extreme hi) fun k ins hk => ⟨by unfold requiresGrad; rw [hi]; exact hk.1, hk.2⟩
  | cat ts d => exact S (adds_catT ts d h) fun _ _ h => h
  | addAssign t r => exact N (nk_addAssign _ _)
  | setRequiresGrad t b =>
    refine N (keeps_mono (nk_setRequiresGrad t b) fun _ _ hk => hk.mono (fun _ _ _ h => h) fun x hx => ⟨b, by rw [hx]⟩)
  | setRetainGrad t b => exact N (nk_setRetainGrad _ _)
  | zeroGrad t => exact N (nk_zeroGrad _)
  | release => exact hc.elim
  | backward => exact hc.elim
  | grad => exact hc.elim
  | all t => exact N (keeps_allT _)
  | toString t => exact N (keeps_toString _)
  | stride t => exact N (keeps_stride _)
  | query t => exact N (keeps_getT _)

theorem node_result (hval : Valid h) {c : Call F} (ha : Allowed h c) (hv : ∀ a ∈ args c, Var h a) :
    Mem h (c.run h) fun o h' => ∀ r f, o = some r → opOf h' r = some f → NewOp h c f.kind f.inputs → Node h' r f := by
  have nothing : (∀ k ins, ¬ NewOp h c k ins) →
      Mem h (c.run h) fun o h' => ∀ r f, o = some r → opOf h' r = some f → NewOp h c f.kind f.inputs → Node h' r f := fun hn =>
    mem_mono (mem_call hval ha hv) fun _ _ _ _ r f _ _ h => absurd h (hn _ _)
  have S : ∀ {x : M F Nat}, (Mem h (x h) fun r h' => ∀ f, opOf h' r = some f → NewOp h c f.kind f.inputs → Node h' r f) →
      Mem h (some' x h) fun o h' => ∀ r f, o = some r → opOf h' r = some f → NewOp h c f.kind f.inputs → Node h' r f := fun hx =>
    mem_bind hx fun r h' _ hq => mem_pure fun r' f e => by obtain rfl := Option.some.inj e; exact hq f
  have known : ∀ {t : Nat} {i : Impl} {x : M F Nat}, h.ts[t]? = some i →
      (Mem h (x h) fun r h' => Var h' r ∧ (i.requiresGrad = true → Known h' r)) →
      Mem h (x h) fun r h' => ∀ f, opOf h' r = some f → (requiresGrad h t = true ∧ ∃ g, f.kind = .knownGrad g) → Node h' r f :=
    fun {t i x} hi hx => mem_mono hx fun r h' _ hq f hf hk => by
      obtain ⟨⟨j, hj, _⟩, hq⟩ := hq
      obtain ⟨hr, g, hg⟩ := hk
      unfold requiresGrad at hr
      rw [hi] at hr
      rw [opOf_some hj] at hf
      obtain ⟨ki, hki, hks⟩ := hq hr j f g hj hf hg
      unfold Node
      rw [hg]
      exact ⟨ki, hki, hks⟩
  cases c
  case mul l r =>
    refine S (mem_mono (mem_applyBinary (.inl ⟨rfl, fills_mul⟩) (hv l (by simp [args])) (hv r (by simp [args])) ha) fun t h' hr _ f hf hk => ?_)
    unfold Node
    rw [hk.1, hk.2]
    exact fun y hy => ((hv y hy).retains hr).lies
  case div l r =>
    refine S (mem_mono (mem_applyBinary' (.inr ⟨rfl, fills_div⟩) (hv l (by simp [args])) (hv r (by simp [args])) ha) fun t h' hr hq f hf hk => ?_)
    obtain ⟨hvt, hsh⟩ := hq
    obtain ⟨ia, hia, _⟩ := (hv l (by simp [args]))
    obtain ⟨ib, hib, _⟩ := (hv r (by simp [args]))
    obtain ⟨ia', ha', ha1, ha2, ha3⟩ := hr.ts l ia hia
    obtain ⟨ib', hb', hsb, _⟩ := (hv r (by simp [args])).retains hr
    obtain ⟨ix, hix, hsx, _⟩ := hvt
    obtain ⟨ib2, hb2, _, hb3, _⟩ := hr.ts r ib hib
    rw [hb'] at hb2
    obtain rfl := Option.some.inj hb2
    have hlen := length_maxShape (shapeOf h l) (shapeOf h r)
    rw [← hsh, shapeOf_at hix, shapeOf_at hia, shapeOf_at hib] at hlen
    unfold Node
    rw [hk.1]
    refine ⟨l, r, ia', ib', ix, hk.2, ha', hb', hix, hsb, hsx, ?_, ?_⟩
    · rw [ha2]; omega
    · rw [hb3]; omega
  case abs t =>
    have hvt := hv t (by simp [args])
    have hvt' := hvt
    obtain ⟨i, hi, _⟩ := hvt'
    exact S (known hi (mem_abs' hi hvt (ha i hi).1 (ha i hi).2))
  case max t =>
    have hvt := hv t (by simp [args])
    have hvt' := hvt
    obtain ⟨i, hi, _⟩ := hvt'
    exact S (known hi (mem_extreme' hi hvt (ha i hi).1 (ha i hi).2))
  case min t =>
    have hvt := hv t (by simp [args])
    have hvt' := hvt
    obtain ⟨i, hi, _⟩ := hvt'
    exact S (known hi (mem_extreme' hi hvt (ha i hi).1 (ha i hi).2))
  case cat ts d =>
    refine S (mem_mono (mem_cat' ha.1 (fun t ht => hv t ht) ha.2) fun t h' hr hq f hf hk => ?_)
    obtain ⟨_, s, ns, i, hd, hall, hi, hview⟩ := hq
    obtain ⟨a1, a2⟩ := ha.2 s ns hd hall
    have hvol := a2.vol
    unfold Node
    rw [hk.1, hk.2]
    refine ⟨s, ns, i, hi, hview, hd, a1, by omega, ?_⟩
    have hv' : ∀ a ∈ ts, Var h a := fun t ht => hv t ht
    clear ha a1 a2 hk hf hi hview hvol nothing S known hv
    induction hall with
    | nil => exact .nil
    | @cons y n l ns hy _ ih =>
      refine .cons ?_ (ih fun a ha => hv' a (List.mem_cons_of_mem _ ha))
      obtain ⟨iy, hiy, _⟩ := hv' y (by simp)
      obtain ⟨j, hj, _, e, _⟩ := hr.ts y iy hiy
      exact ⟨j, hj, by rw [e, ← shapeOf_at hiy]; exact hy⟩
  all_goals exact nothing fun _ _ h => h

/-- A computation that keeps the graph in good order. -/
def Orders {α : Type} (x : M F α) (h : Heap F) : Prop :=
  match x h with
  | .ok _ h' => Ordered h'
  | .throw _ h' => Ordered h'
  | .ub _ => True

theorem orders_plain (hval : Valid h) (ho : Ordered h) {c : Call F} (hc : Steady c) (ha : Allowed h c) (hv : ∀ a ∈ args c, Var h a)
    (hf : KeepsAt (fun _ h' => FlagOK h') c.run h) : Orders c.run h := by
  have h1 := nk_call hc hv
  have h2 := mem_call hval ha hv
  have h3 := node_result hval ha hv
  unfold KeepsAt at hf
  unfold Orders
  cases he : c.run h with
  | ok o h' =>
    rw [he] at h1 h2 h3 hf
    refine ho.nk h2.1 h1 hf (fun x f hx hk => h3.2 x f hk.1 hx hk.2) fun x hx => ?_
    rcases hx with hx | ⟨b, rfl⟩
    · exact h2.2 x hx
    · exact (hv x (by simp [args])).retains h2.1
  | throw e h' =>
    rw [he] at h1 h2 hf
    refine ho.nk h2 h1 hf (fun _ _ _ h => h.elim) fun x hx => ?_
    obtain ⟨b, rfl⟩ := hx
    exact (hv x (by simp [args])).retains h2
  | ub u => trivial

end INNC
