import Verif.Lemmas.Weighted
import Verif.Props.Deriv
/-
C38, C42, C43, C44: the gradients that programs of one operation leave, with an arbitrary gradient of its result.
-/
namespace INNC
open Spec Tensor DualNumber
variable {F : Type} [Field F] [FOps F] [Exact F]

/-- **C38** with an arbitrary gradient of the result: let a program (see `C38_program_partial`) have computed `y`, of any shape,
and let `w` be a constant tensor of the same shape. Then `p = y * w`, `s = p.sum()`, `s.backward()` returns, and the gradient of
every leaf of `y` has grown at every index by the sum over all elements of `y` of the element of `w` times the partial derivative
of the element of `y`. (The gradient of `y` is `w`: this is the product of `w` with the Jacobian of `y`.) -/
theorem C38_weighted_partial (h : Heap F) (vs : List Nat) (hf : Forward h vs) (y w : Nat) (hy : y ∈ vs) (hw : w ∈ vs)
    (hry : requiresGrad h y = true) (hrw : requiresGrad h w = false) (hsh : shapeOf h w = shapeOf h y)
    (hs : Spec.Small (shapeOf h y) .f64) (hN : Inner h [y, w]) (dt : DType) (f : List Nat → Val F)
    (hd : Denotes h w dt (shapeOf h w) f) :
    ∃ H, (do let p ← mulT y w; let s ← sumT p; backward s : M F Unit) h = .ok () H ∧
      ∀ x, Leaf h y x → ∃ G₀ G₁, GradOrZero h x G₀ ∧ GradIs H x G₁ ∧
        ∀ idx, InBox (shapeOf h x) idx → (∃ u, Lift h y u ∧ Direction h y u x idx) ∧
          ∀ u, Lift h y u → Direction h y u x idx →
            G₁ idx = G₀ idx + boxSum (shapeOf h y) fun j => real (f j) * (u y j).snd := by
  obtain ⟨V, hV, hI⟩ := forward_inv hf
  have hyw : w ≠ y := fun e => by rw [e, hry] at hrw; exact absurd hrw (by decide)
  have hbc : Broadcasts (shapeOf h y) (shapeOf h w) (shapeOf h y) := by rw [hsh]; exact broadcasts_self _
  have hc : ∀ a ∈ [y, w], a ≠ y → requiresGrad h a = false := fun a ha hay => by
    simp only [List.mem_cons, List.not_mem_nil, or_false] at ha
    rcases ha with rfl | rfl
    · exact absurd rfl hay
    · exact hrw
  have hins : ∀ a ∈ [y, w], V a := fun a ha => by
    simp only [List.mem_cons, List.not_mem_nil, or_false] at ha
    rcases ha with rfl | rfl
    · exact hV _ hy
    · exact hV _ hw
  obtain ⟨h1, e1, st1⟩ := hI.arith_step (op := .mul) (hV y hy) (hV w hw) hbc hs (.inl hry)
  have hF1 : Forward h1 (h.ts.length :: vs) := by
    refine Forward.returns hf (c := .mul y w) ⟨_, hbc, hs⟩ (fun a ha => ?_) (some'_ok e1)
    simp only [args, List.mem_cons, List.not_mem_nil, or_false] at ha
    rcases ha with rfl | rfl
    · exact hy
    · exact hw
  have hN1 := st1.inner (l := []) hI (by simpa using hins) (by simpa using hN) hs (by simp [arithBack]) (by simp [arithBack])
  generalize hp : h.ts.length = p at *
  obtain ⟨V1, hV1, hI1⟩ := forward_inv hF1
  have hVp : V1 p := hV1 p (by simp)
  have hvol : vol (shapeOf h1 p) < 9223372036854775808 := by rw [st1.shape]; exact vol_lt_of_bytes hs
  obtain ⟨h2, e2, st2⟩ := hI1.sum_step hVp st1.req hvol
  have hF2 : Forward h2 (h1.ts.length :: p :: vs) :=
    Forward.returns hF1 (c := .sum p) hvol (fun a ha => by simp only [args, List.mem_singleton] at ha; simp [ha]) (some'_ok e2)
  have hins1 : ∀ a ∈ [p], V1 a := by simpa using hVp
  have hc1 : ∀ a ∈ [p], a ≠ p → requiresGrad h1 a = false := by simp
  have hS := st2.smooth hI1 hins1 hN1 (by unfold Spec.Small; decide) (by simp) (by simp) (by simp)
  obtain ⟨H, e3, hg⟩ := C38_program_partial h2 _ hF2 _ (by simp) st2.req st2.interior (by rw [st2.shape]; decide) hS
  obtain ⟨V2, hV2, hI2⟩ := forward_inv hF2
  generalize hst : h1.ts.length = t at *
  have hVt : V2 t := hV2 t (by simp)
  refine ⟨H, ?_, fun x hx => ?_⟩
  · show (arithT .mul y w >>= fun p => sumT p >>= fun s => backward s) h = _
    rw [M.bind_ok e1, M.bind_ok e2, e3]
  · have hVx := (hI.from (hV y hy) hx.1.1).1
    have hl1 : Leaf h1 p x := (st1.leaf hI hins (by simp) hc).2 hx
    have hl2 : Leaf h2 t x := (st2.leaf hI1 hins1 (by simp) hc1).2 hl1
    obtain ⟨G₀, G₁, g0, g1, g2⟩ := hg x hl2
    have hext : Extends h h2 := st1.ext.trans st2.ext
    refine ⟨G₀, G₁, hI.grad_ext hext hVx hx.2 g0, g1, fun idx hidx => ?_⟩
    obtain ⟨⟨v, v1, v2⟩, g3⟩ := g2 idx (by rw [(hI.same_ext hext hVx).shape]; exact hidx)
    have hm : ∀ x g, From h y x → opOf h x = some g → g.kind ≠ .mean := fun x g => hN.mean y (by simp) x g
    have hm1 : ∀ x g, From h1 p x → opOf h1 x = some g → g.kind ≠ .mean := fun x g => hN1.mean p (by simp) x g
    have ag := hI.agree_ext hext (hV y hy)
    refine ⟨⟨v, ?_, ?_⟩, fun u hl hdir => ?_⟩
    · refine ag.symm.lift (v1.part ?_ fun x g hx hg => ?_)
      · exact st2.from.2 (.inr ⟨p, by simp, (hI1.agree_ext st2.ext hVp).froms.2 (st1.from.2 (.inr ⟨y, by simp, .root⟩))⟩)
      · have hx := ag.froms.1 hx
        rw [hI.op_ext hext (hI.from (hV y hy) hx).1] at hg
        exact hm x g hx hg
    · exact (st1.direction hI hins (by simp) hc fun _ _ => rfl).1 ((st2.direction hI1 hins1 (by simp) hc1 fun _ _ => rfl).1 v2)
    · have hprim := (hI1.ops p _ hVp st1.op).2.2.2
      have hSy := hI.same_ext st1.ext (hV y hy)
      have hSw := hI.same_ext st1.ext (hV w hw)
      have hval : ∀ j, InBox (shapeOf h y) j → (u y j).fst = valOf h y j := fun j hj => by
        obtain ⟨i, _, hi, _⟩ := hI.reads y (hV y hy)
        obtain ⟨fy, r1, r2⟩ := hl.value y i .root hi
        rw [shapeOf_eq hi] at hj
        rw [r2 j hj, valOf_reads hi r1 hj]
      have hpr : ∀ j, InBox (shapeOf h y) j → project (shapeOf h y) j = j := fun j hj => project_self hj
      obtain ⟨u1, l1, a1, b1⟩ := st1.lift hI hins hI1 hVp (y := y) (by simp) hc hm hl (fun j => u y j * dn (valOf h w j) 0)
        (fun j hj => by
          have := hprim.2 j (by rw [st1.shape]; exact hj)
          rw [this, hSy.shape, hSw.shape, hsh, hpr j hj, hSy.val, hSw.val, TrivSqZeroExt.fst_mul, hval j hj, dn_fst])
        (fun u' q1 q2 q3 => by
          refine ⟨hprim.1, fun j hj => ?_⟩
          rw [st1.shape] at hj
          rw [q1, q2, hSy.shape, hSw.shape, hsh, hpr j hj, q3 w (by simp) hyw j (by rw [hsh]; exact hj)])
      have hprim2 := (hI2.ops t _ hVt st2.op).2.2.2
      have hSp := hI1.same_ext st2.ext hVp
      have hval1 : ∀ j, InBox (shapeOf h1 p) j → (u1 p j).fst = valOf h1 p j := fun j hj => by
        obtain ⟨i, _, hi, _⟩ := hI1.reads p hVp
        obtain ⟨fy, r1, r2⟩ := l1.value p i .root hi
        rw [shapeOf_eq hi] at hj
        rw [r2 j hj, valOf_reads hi r1 hj]
      obtain ⟨u2, l2, a2, b2⟩ := st2.lift hI1 hins1 hI2 hVt (y := p) (by simp) hc1 hm1 l1 (fun _ => boxSum (shapeOf h1 p) (u1 p))
        (fun j hj => by
          obtain rfl : j = [] := by simpa using hj.length
          rw [hprim2.2, hSp.shape, hSp.val, fst_boxSum]
          exact boxSum_congr fun k hk => hval1 k hk)
        (fun u' q1 q2 _ => ⟨hprim2.1, by rw [q1, q2, hSp.shape]⟩)
      have hdir2 : Direction h2 t u2 x idx :=
        (st2.direction hI1 hins1 (by simp) hc1 a2).2 ((st1.direction hI hins (by simp) hc a1).2 hdir)
      rw [g3 u2 l2 hdir2 [] (by rw [st2.shape]; trivial), b2, snd_boxSum, b1, st1.shape]
      congr 1
      refine boxSum_congr fun j hj => ?_
      obtain ⟨i, hi, _, hsz, hr⟩ := hd
      show TrivSqZeroExt.snd (u y j * dn (valOf h w j) 0) = _
      rw [valOf_reads hi hr (by rw [hsz, hsh]; exact hj), TrivSqZeroExt.snd_mul, dn_snd, dn_fst, smul_zero, zero_add, MulOpposite.smul_eq_mul_unop,
        MulOpposite.unop_op, mul_comm]

/-- Hypotheses met: `a = [1, 5, 3]` and `b = [2, 4, 8]` require grad, `y = a * b`, `w = [1, -1, 2]` is constant... -/
example : Forward parts [4, 3, 2, 1, 0] ∧ requiresGrad parts 4 = true ∧ requiresGrad parts 2 = false ∧
    shapeOf parts 2 = shapeOf parts 4 ∧ Spec.Small (shapeOf parts 4) .f64 ∧ Inner parts [4, 2] ∧
    (∃ dt f, Denotes parts 2 dt (shapeOf parts 2) f) ∧ Leaf parts 4 0 ∧ Leaf parts 4 1 := by
  refine ⟨parts_forward, by decide +kernel, by decide +kernel, by decide +kernel, by unfold Spec.Small; decide +kernel,
    inner_of_check [4, 2, 1, 0] (by decide +kernel), ?_, ⟨⟨.step .root (by unfold Uses; decide +kernel), ?_⟩, by unfold Interior; decide +kernel⟩,
    ⟨⟨.step .root (by unfold Uses; decide +kernel), ?_⟩, by unfold Interior; decide +kernel⟩⟩
  · obtain ⟨dt, f, hd, _⟩ := forward_denotes parts_forward (x := 2) (by simp)
    exact ⟨dt, f, hd⟩
  · have : (parts.ts[0]?).map (·.requiresGrad) = some true := by decide +kernel
    cases hi : parts.ts[0]? with
    | none => rw [hi] at this; simp at this
    | some i => rw [hi] at this; exact ⟨i, rfl, Option.some.inj this⟩
  · have : (parts.ts[1]?).map (·.requiresGrad) = some true := by decide +kernel
    cases hi : parts.ts[1]? with
    | none => rw [hi] at this; simp at this
    | some i => rw [hi] at this; exact ⟨i, rfl, Option.some.inj this⟩

/-- The gradient of `x` that a program leaves. -/
def gradAfter (x : Nat) (prog : M ℚ Unit) : Option (List ℚ) :=
  match prog parts with
  | .ok _ H => (H.ts[x]?.bind (·.grad)).map fun g => (rowMajor (shapeOf H g)).map (valOf H g)
  | _ => none

/-- ... and the gradients are `w * b` and `w * a`. -/
example : gradAfter 0 (do let p ← mulT 4 2; let s ← sumT p; backward s) = some [2, -4, 16] ∧
    gradAfter 1 (do let p ← mulT 4 2; let s ← sumT p; backward s) = some [1, -5, 6] := by decide +kernel

/-! ### C42 -/

/-- **C42** where the mean is the last operation: `m = x.mean()`, `m.backward()` adds 1 / numel to every element of the gradient
of `x`.
Missing for the whole of C42: a gradient of the mean other than 1, for which it is false (`C42_ignores_upstream_partial`). -/
theorem C42_last_partial (h : Heap F) (vs : List Nat) (hf : Forward h vs) (x : Nat) (hx : x ∈ vs) (hr : requiresGrad h x = true)
    (hl : ¬ Interior h x) (hs : vol (shapeOf h x) < 9223372036854775808) (hz : (vol (shapeOf h x) : F) ≠ 0) (hN : Inner h [x]) :
    ∃ H, (do let m ← meanT x; backward m : M F Unit) h = .ok () H ∧ ∃ G₀ G₁, GradOrZero h x G₀ ∧ GradIs H x G₁ ∧
      ∀ idx, InBox (shapeOf h x) idx → G₁ idx = G₀ idx + 1 / (vol (shapeOf h x) : F) := by
  obtain ⟨V, hV, hI⟩ := forward_inv hf
  obtain ⟨h1, e1, st⟩ := hI.mean_step (hV x hx) hr hs
  have hF1 : Forward h1 (h.ts.length :: vs) :=
    Forward.returns hf (c := .mean x) hs (fun a ha => by simp only [args, List.mem_singleton] at ha; rw [ha]; exact hx) (some'_ok e1)
  have hins : ∀ a ∈ [x], V a := by simpa using hV x hx
  have hc : ∀ a ∈ [x], a ≠ x → requiresGrad h a = false := by simp
  have hS := st.smooth hI hins hN (by unfold Spec.Small; decide) (by simp) (by simp) (by simpa using hz)
  obtain ⟨H, e2, hg⟩ := C38_program_partial h1 _ hF1 _ (by simp) st.req st.interior (by rw [st.shape]; decide) hS
  obtain ⟨i, _, hi, _⟩ := hI.reads x (hV x hx)
  have hleaf : Leaf h x x := ⟨⟨.root, i, hi, by rw [requiresGrad_eq hi] at hr; exact hr⟩, hl⟩
  have hleaf1 := (st.leaf hI hins (by simp) hc).2 hleaf
  obtain ⟨G₀, G₁, g0, g1, g2⟩ := hg x hleaf1
  have hSx := hI.same_ext st.ext (hV x hx)
  refine ⟨H, ?_, G₀, G₁, hI.grad_ext st.ext (hV x hx) hl g0, g1, fun idx hidx => ?_⟩
  · rw [M.bind_ok e1, e2]
  · obtain ⟨⟨u, l1, d1⟩, g3⟩ := g2 idx (by rw [hSx.shape]; exact hidx)
    rw [g3 u l1 d1 [] (by rw [st.shape]; trivial)]
    obtain ⟨_, _, _, _, hm⟩ := l1.op _ _ .root st.op
    have hd := d1 x hleaf1
    rw [hSx.shape] at hm hd
    have key := congrArg TrivSqZeroExt.snd hm
    rw [snd_boxSum, boxSum_single hidx _ fun k hk hne => (hd k hk).2 fun hc => hne hc.2, (hd idx hidx).1 rfl rfl,
      TrivSqZeroExt.snd_mul] at key
    simp only [TrivSqZeroExt.fst_natCast, TrivSqZeroExt.snd_natCast, smul_zero, add_zero, smul_eq_mul] at key
    rw [mul_comm] at key
    rw [eq_div_of_mul_eq hz key]

/-- Hypotheses met, by `a`... -/
example : Forward parts [4, 3, 2, 1, 0] ∧ requiresGrad parts 0 = true ∧ ¬ Interior parts 0 ∧ vol (shapeOf parts 0) < 9223372036854775808 ∧
    (vol (shapeOf parts 0) : ℚ) ≠ 0 ∧ Inner parts [0] :=
  ⟨parts_forward, by decide +kernel, by unfold Interior; decide +kernel, by decide +kernel, by
    rw [show shapeOf parts 0 = [3] by decide +kernel]; decide, inner_of_check [0] (by decide +kernel)⟩

/-- ... whose gradient is 1/3 everywhere. -/
example : gradAfter 0 (do let m ← meanT 0; backward m) = some [1/3, 1/3, 1/3] := by decide +kernel

/-! ### C43 -/

/-- **C43** where the denominator has the shape of the quotient and both operands require grad: with the gradient `w` of
`q = a / b`, that of `a` grows by the sum of `w / b` over the elements of the quotient that the element of `a` is broadcast to,
and that of `b` by `- w * (a / b) / b`.
Missing for the whole of C43: constant operands and broadcast denominators, for which it is false (the other theorems of
C43). -/
theorem C43_rule_partial (h : Heap F) (vs : List Nat) (hf : Forward h vs) (a b w : Nat) (ha : a ∈ vs) (hb : b ∈ vs) (hw : w ∈ vs)
    (hla : ¬ Interior h a) (hlb : ¬ Interior h b) (hab : a ≠ b) (hra : requiresGrad h a = true) (hrb : requiresGrad h b = true)
    (hrw : requiresGrad h w = false) (hsa : Broadcasts (shapeOf h a) (shapeOf h b) (shapeOf h b)) (hsw : shapeOf h w = shapeOf h b)
    (hs : Spec.Small (shapeOf h b) .f64) (hN : Inner h [a, b, w]) (da db dw : DType) (fa fb fw : List Nat → Val F)
    (hda : Denotes h a da (shapeOf h a) fa) (hdb : Denotes h b db (shapeOf h b) fb) (hdw : Denotes h w dw (shapeOf h w) fw)
    (hz : ∀ idx, InBox (shapeOf h b) idx → real (fb idx) ≠ 0) :
    ∃ H, (do let q ← divT a b; let p ← mulT q w; let s ← sumT p; backward s : M F Unit) h = .ok () H ∧
      (∃ G₀ G₁, GradOrZero h a G₀ ∧ GradIs H a G₁ ∧ ∀ idx, InBox (shapeOf h a) idx →
        G₁ idx = G₀ idx + boxSum (shapeOf h b) fun j => if project (shapeOf h a) j = idx then real (fw j) / real (fb j) else 0) ∧
      (∃ G₀ G₁, GradOrZero h b G₀ ∧ GradIs H b G₁ ∧ ∀ idx, InBox (shapeOf h b) idx →
        G₁ idx = G₀ idx - real (fw idx) * (real (fa (project (shapeOf h a) idx)) / real (fb idx)) / real (fb idx)) := by
  obtain ⟨V, hV, hI⟩ := forward_inv hf
  obtain ⟨ia, hia, _, hia2, hra'⟩ := hda
  obtain ⟨ib, hib, _, hib2, hrb'⟩ := hdb
  have hvalb : ∀ i f idx, h.ts[b]? = some i → Reads h i f → InBox i.view.sizes idx → real (f idx) ≠ 0 := fun i f idx hi hr hidx => by
    rw [hib] at hi
    obtain rfl := Option.some.inj hi
    rw [reads_unique hr hrb' hidx]
    exact hz idx (by rw [← hib2]; exact hidx)
  obtain ⟨h1, e1, st⟩ := hI.arith_step (op := .div) (hV a ha) (hV b hb) hsa hs (.inl hra)
  have hins : ∀ x ∈ [a, b], V x := fun x hx => by
    simp only [List.mem_cons, List.not_mem_nil, or_false] at hx
    rcases hx with rfl | rfl
    · exact hV _ ha
    · exact hV _ hb
  have hF1 : Forward h1 (h.ts.length :: vs) := by
    refine Forward.returns hf (c := .div a b) ⟨_, hsa, hs⟩ (fun x hx => ?_) (some'_ok e1)
    simp only [args, List.mem_cons, List.not_mem_nil, or_false] at hx
    rcases hx with rfl | rfl
    · exact ha
    · exact hb
  have hN1 := st.inner (l := [w]) hI (fun x hx => by
    rcases List.mem_append.1 hx with hx | hx
    · exact hins x hx
    · rw [List.mem_singleton.1 hx]; exact hV w hw) hN hs (fun a' b' _ e => by
    simp only [List.cons.injEq, and_true] at e
    obtain ⟨rfl, rfl⟩ := e
    exact ⟨rfl, hra, hrb, hvalb⟩) (by simp [arithBack])
  generalize hq : h.ts.length = q at *
  have hSa := hI.same_ext st.ext (hV a ha)
  have hSb := hI.same_ext st.ext (hV b hb)
  have hSw := hI.same_ext st.ext (hV w hw)
  have hrw1 : requiresGrad h1 w = false := by unfold requiresGrad; rw [hI.at_ext st.ext (hV w hw)]; exact hrw
  obtain ⟨H, e2, hg⟩ := C38_weighted_partial h1 _ hF1 q w (by simp) (by simp [hw]) st.req hrw1
    (by rw [hSw.shape, st.shape]; exact hsw) (by rw [st.shape]; exact hs) hN1 dw fw (by rw [hSw.shape]; exact hdw.of_extends st.ext)
  have hleaf : ∀ x, x ∈ [a, b] → ¬ Interior h x → requiresGrad h x = true → Leaf h1 q x := fun x hx hn hr => by
    have ag := hI.agree_ext st.ext (hins x hx)
    obtain ⟨i, _, hi, _⟩ := hI.reads x (hins x hx)
    have := ag.leaf.2 ⟨⟨.root, i, hi, by rw [requiresGrad_eq hi] at hr; exact hr⟩, hn⟩
    exact ⟨⟨st.from.2 (.inr ⟨x, hx, this.1.1⟩), this.1.2⟩, this.2⟩
  have hLa := hleaf a (by simp) hla hra
  have hLb := hleaf b (by simp) hlb hrb
  have hrule : ∀ u, Lift h1 q u → ∀ j, InBox (shapeOf h b) j → (u q j).snd =
      ((u a (project (shapeOf h a) j)).snd - real (fa (project (shapeOf h a) j)) / real (fb j) * (u b j).snd) / real (fb j) := by
    intro u hl j hj
    obtain ⟨_, _, _, _, hc⟩ := hl.op q _ .root st.op
    rw [st.shape] at hc
    obtain ⟨c1, c2⟩ := hc j hj
    rw [hSa.shape] at c2
    have va : (u a (project (shapeOf h a) j)).fst = real (fa (project (shapeOf h a) j)) := by
      obtain ⟨f, r1, r2⟩ := hl.value a ia hLa.1.1 (st.ext.ts _ _ hia)
      have hb' : InBox ia.view.sizes (project (shapeOf h a) j) := by rw [hia2]; exact hsa.inBox hj
      rw [r2 _ hb', reads_unique r1 (hra'.of_extends st.ext) hb']
    have vb : (u b j).fst = real (fb j) := by
      obtain ⟨f, r1, r2⟩ := hl.value b ib hLb.1.1 (st.ext.ts _ _ hib)
      have hb' : InBox ib.view.sizes j := by rw [hib2]; exact hj
      rw [r2 _ hb', reads_unique r1 (hrb'.of_extends st.ext) hb']
    have k1 := congrArg TrivSqZeroExt.fst c2
    have k2 := congrArg TrivSqZeroExt.snd c2
    rw [TrivSqZeroExt.fst_mul, vb, va] at k1
    rw [TrivSqZeroExt.snd_mul, vb] at k2
    simp only [smul_eq_mul, MulOpposite.smul_eq_mul_unop, MulOpposite.unop_op] at k2
    have hbz := hz j hj
    rw [← k1, ← k2]
    field_simp
    ring
  refine ⟨H, ?_, ?_, ?_⟩
  · show (arithT .div a b >>= fun q => mulT q w >>= fun p => sumT p >>= fun s => backward s) h = _
    rw [M.bind_ok e1]
    exact e2
  · obtain ⟨G₀, G₁, g0, g1, g2⟩ := hg a hLa
    refine ⟨G₀, G₁, hI.grad_ext st.ext (hV a ha) hla g0, g1, fun idx hidx => ?_⟩
    obtain ⟨⟨u, l1, d1⟩, g3⟩ := g2 idx (by rw [hSa.shape]; exact hidx)
    rw [g3 u l1 d1, st.shape]
    congr 1
    refine boxSum_congr fun j hj => ?_
    have hda := d1 a hLa (project (shapeOf h a) j) (by rw [hSa.shape]; exact hsa.inBox hj)
    have hdb := (d1 b hLb j (by rw [hSb.shape]; exact hj)).2 fun hc => hab hc.1.symm
    rw [hrule u l1 j hj, hdb]
    split
    · next hc => rw [hda.1 rfl hc]; ring
    · next hc => rw [hda.2 fun hc' => hc hc'.2]; ring
  · obtain ⟨G₀, G₁, g0, g1, g2⟩ := hg b hLb
    refine ⟨G₀, G₁, hI.grad_ext st.ext (hV b hb) hlb g0, g1, fun idx hidx => ?_⟩
    obtain ⟨⟨u, l1, d1⟩, g3⟩ := g2 idx (by rw [hSb.shape]; exact hidx)
    have hda : ∀ j, InBox (shapeOf h b) j → (u a (project (shapeOf h a) j)).snd = 0 := fun j hj =>
      (d1 a hLa (project (shapeOf h a) j) (by rw [hSa.shape]; exact hsa.inBox hj)).2 fun hc => hab hc.1
    have hdb := fun j (hj : InBox (shapeOf h b) j) => d1 b hLb j (by rw [hSb.shape]; exact hj)
    rw [g3 u l1 d1, st.shape, boxSum_single hidx _ fun k hk hne => ?_, hrule u l1 idx hidx, hda idx hidx, (hdb idx hidx).1 rfl rfl]
    · ring
    · rw [hrule u l1 k hk, hda k hk, (hdb k hk).2 fun hc => hne hc.2]; ring

/-- Hypotheses met, by `a / b`... -/
example : Forward parts [4, 3, 2, 1, 0] ∧ ¬ Interior parts 0 ∧ ¬ Interior parts 1 ∧ requiresGrad parts 0 = true ∧
    requiresGrad parts 1 = true ∧ requiresGrad parts 2 = false ∧ Broadcasts (shapeOf parts 0) (shapeOf parts 1) (shapeOf parts 1) ∧
    shapeOf parts 2 = shapeOf parts 1 ∧ Spec.Small (shapeOf parts 1) .f64 ∧ Inner parts [0, 1, 2] ∧
    ∃ da fa db fb dw fw, Denotes parts 0 da (shapeOf parts 0) fa ∧ Denotes parts 1 db (shapeOf parts 1) fb ∧
      Denotes parts 2 dw (shapeOf parts 2) fw ∧ ∀ idx, InBox (shapeOf parts 1) idx → real (fb idx) ≠ 0 := by
  refine ⟨parts_forward, by unfold Interior; decide +kernel, by unfold Interior; decide +kernel, by decide +kernel, by decide +kernel,
    by decide +kernel, ?_, by decide +kernel, by unfold Spec.Small; decide +kernel, inner_of_check [2, 1, 0] (by decide +kernel), ?_⟩
  · rw [show shapeOf parts 0 = [3] by decide +kernel, show shapeOf parts 1 = [3] by decide +kernel]
    exact broadcasts_self [3]
  · obtain ⟨da, fa, ha, _⟩ := forward_denotes parts_forward (x := 0) (by simp)
    obtain ⟨db, fb, hb, hv⟩ := forward_denotes parts_forward (x := 1) (by simp)
    obtain ⟨dw, fw, hw, _⟩ := forward_denotes parts_forward (x := 2) (by simp)
    refine ⟨da, fa, db, fb, dw, fw, ha, hb, hw, fun idx hidx => ?_⟩
    rw [hv idx hidx]
    have : ∀ k ∈ rowMajor (shapeOf parts 1), valOf parts 1 k ≠ 0 := by decide +kernel
    exact this idx (mem_rowMajor.2 hidx)

/-- ... with the weights `[1, -1, 2]`. -/
example : gradAfter 0 (do let q ← divT 0 1; let p ← mulT q 2; let s ← sumT p; backward s) = some [1/2, -1/4, 1/4] ∧
    gradAfter 1 (do let q ← divT 0 1; let p ← mulT q 2; let s ← sumT p; backward s) = some [-1/4, 5/16, -3/32] := by decide +kernel

/-! ### C44 -/

/-- **C44**: with gradients `max()` and `min()` of a tensor that begins at the beginning of its storage return if it has no
axes or some element is not bounded by the first (`>=` for `max()`, `<=` for `min()`), and throw otherwise. -/
theorem C44_returns_partial (h : Heap F) (vs : List Nat) (hf : Forward h vs) (x : Nat) (hx : x ∈ vs) (i : Impl) (hi : h.ts[x]? = some i)
    (hr : i.requiresGrad = true) (ho : i.view.offset = 0) (hv : vol i.view.sizes ≠ 0) (hs : Spec.Small i.view.sizes i.dtype)
    (f : List Nat → Val F) (hd : Reads h i f) (keep : COp) (run : M F Nat)
    (hk : keep = .ge ∧ run = maxT x ∨ keep = .le ∧ run = minT x) :
    (i.view.sizes = [] ∨ (∃ idx, InBox i.view.sizes idx ∧
        elemCompare keep i.dtype i.dtype (f (i.view.sizes.map fun _ => 0)) (f idx) = false) → ∃ m H, run h = .ok m H) ∧
    (¬ (i.view.sizes = [] ∨ ∃ idx, InBox i.view.sizes idx ∧
        elemCompare keep i.dtype i.dtype (f (i.view.sizes.map fun _ => 0)) (f idx) = false) → ∃ H, run h = .throw .runtime H) := by
  obtain ⟨V, hV, hI⟩ := forward_inv hf
  obtain ⟨h1, h2⟩ := hI.extreme_step (keep := keep) (hV x hx) hi hd hr ho hv hs
  have hrun : run = Tensor.extreme keep x := by
    rcases hk with ⟨rfl, rfl⟩ | ⟨rfl, rfl⟩ <;> rfl
  rw [hrun]
  refine ⟨fun hc => ?_, h2⟩
  obtain ⟨H, _, _, e, _⟩ := h1 hc
  exact ⟨_, H, e⟩

/-- **C44** where `max()` (`min()`) returns: the gradient `w` of its result is added to the gradient of `x` at one position that
holds the result, which is `>=` (`<=`) all elements if the elements are ordered; the other elements of the gradient stay as they are.
Missing for the whole of C44: the cases in which it is false, `C44_first_element` (see `C44_returns_partial`) and `C44_view`. -/
theorem C44_rule_partial (h : Heap F) (vs : List Nat) (hf : Forward h vs) (x w : Nat) (hx : x ∈ vs) (hw : w ∈ vs) (i : Impl)
    (hi : h.ts[x]? = some i) (hr : i.requiresGrad = true) (hl : ¬ Interior h x) (ho : i.view.offset = 0) (hv : vol i.view.sizes ≠ 0)
    (hs : Spec.Small i.view.sizes i.dtype) (hrw : requiresGrad h w = false) (hN : Inner h [x, w]) (f : List Nat → Val F)
    (hd : Reads h i f) (dw : DType) (c : Val F) (hdw : Denotes h w dw [] fun _ => c) (keep : COp) (run : M F Nat)
    (hk : keep = .ge ∧ run = maxT x ∨ keep = .le ∧ run = minT x) (m : Nat) (h1 : Heap F) (hrun : run h = .ok m h1) :
    ∃ H p, (do let q ← mulT m w; let s ← sumT q; backward s : M F Unit) h1 = .ok () H ∧ InBox i.view.sizes p ∧
      Denotes h1 m i.dtype [] (fun _ => f p) ∧
      (Ordered keep i.dtype i.view.sizes f → ∀ idx, InBox i.view.sizes idx → elemCompare keep i.dtype i.dtype (f p) (f idx) = true) ∧
      ∃ G₀ G₁, GradOrZero h x G₀ ∧ GradIs H x G₁ ∧ ∀ idx, InBox i.view.sizes idx →
        G₁ idx = G₀ idx + if idx = p then real c else 0 := by
  obtain ⟨V, hV, hI⟩ := forward_inv hf
  obtain ⟨hok, hthrow⟩ := hI.extreme_step (keep := keep) (hV x hx) hi hd hr ho hv hs
  have hfits : ∀ j, h.ts[x]? = some j → j.view.offset = 0 ∧ vol j.view.sizes ≠ 0 ∧ Spec.Small j.view.sizes j.dtype := fun j hj => by
    rw [hi] at hj
    obtain rfl := Option.some.inj hj
    exact ⟨ho, hv, hs⟩
  have hargs : ∀ a ∈ [x], a ∈ vs := by simpa using hx
  have hF1 : Forward h1 (m :: vs) := by
    rcases hk with ⟨_, rfl⟩ | ⟨_, rfl⟩
    · exact Forward.returns hf (c := .max x) hfits hargs (some'_ok hrun)
    · exact Forward.returns hf (c := .min x) hfits hargs (some'_ok hrun)
  have hrun' : run = Tensor.extreme keep x := by
    rcases hk with ⟨rfl, rfl⟩ | ⟨rfl, rfl⟩ <;> rfl
  rw [hrun'] at hrun
  have hc : i.view.sizes = [] ∨ ∃ idx, InBox i.view.sizes idx ∧
      elemCompare keep i.dtype i.dtype (f (i.view.sizes.map fun _ => 0)) (f idx) = false := by
    by_contra hn
    obtain ⟨H, e⟩ := hthrow hn
    rw [hrun] at e
    simp at e
  obtain ⟨h1', k, p, e, st, hp, hm, hbd, j, g, hj, hg, hj2, hj3, hgv⟩ := hok hc
  rw [hrun] at e
  injection e with e3 e4
  subst e3 e4
  have hins : ∀ a ∈ [x], V a := by simpa using hV x hx
  have hN1 := st.inner (l := [w]) hI (fun a ha => by
    rcases List.mem_append.1 ha with ha | ha
    · exact hins a ha
    · rw [List.mem_singleton.1 ha]; exact hV w hw) hN (by unfold Spec.Small; decide) (by simp) (by simp)
  have hSx := hI.same_ext st.ext (hV x hx)
  have hSw := hI.same_ext st.ext (hV w hw)
  have hws : shapeOf h w = [] := by
    obtain ⟨iw, hiw, _, hs', _⟩ := hdw
    rw [shapeOf_eq hiw, hs']
  have hrw1 : requiresGrad h1 w = false := by unfold requiresGrad; rw [hI.at_ext st.ext (hV w hw)]; exact hrw
  obtain ⟨H, e2, hgr⟩ := C38_weighted_partial h1 _ hF1 _ w (by simp) (by simp [hw]) st.req hrw1 (by rw [hSw.shape, st.shape, hws])
    (by rw [st.shape]; unfold Spec.Small; decide) hN1 dw (fun _ => c) (by rw [hSw.shape, hws]; exact hdw.of_extends st.ext)
  have hleaf : Leaf h1 _ x := (st.leaf hI hins (by simp) (by simp)).2 ⟨⟨.root, i, hi, hr⟩, hl⟩
  obtain ⟨G₀, G₁, g0, g1, g2⟩ := hgr x hleaf
  refine ⟨H, p, e2, hp, hm, hbd, G₀, G₁, hI.grad_ext st.ext (hV x hx) hl g0, g1, fun idx hidx => ?_⟩
  obtain ⟨⟨u, l1, d1⟩, g3⟩ := g2 idx (by rw [hSx.shape, shapeOf_eq hi]; exact hidx)
  have hd1 := d1 x hleaf
  rw [hSx.shape, shapeOf_eq hi] at hd1
  rw [g3 u l1 d1, st.shape, boxSum_single (s := []) (idx := []) trivial _ fun k hk hne => absurd (by simpa using hk.length) hne]
  congr 1
  obtain ⟨j', f', hj', _, _, hr', _, _, hcomp⟩ := l1.op _ _ .root st.op
  rw [hj] at hj'
  obtain rfl := Option.some.inj hj'
  rw [hcomp [] (by rw [st.shape]; trivial), snd_boxSum, st.shape, hSx.shape, shapeOf_eq hi, boxSum_single hp, project_nil, if_pos rfl,
    TrivSqZeroExt.snd_smul, reads_unique hr' hg (by rw [hj2]; exact hp), hgv p hp, if_pos rfl, one_smul]
  · split
    · next hc => rw [(hd1 p hp).1 rfl hc.symm, mul_one]
    · next hc => rw [(hd1 p hp).2 fun hc' => hc hc'.2.symm, mul_zero]
  · intro k hk hne
    rw [project_nil, if_pos rfl, TrivSqZeroExt.snd_smul, reads_unique hr' hg (by rw [hj2]; exact hk), hgv k hk, if_neg hne, zero_smul]

/-- Hypotheses met, by the maximum and the minimum of `b`, of which the former returns and the latter throws, and `c = 7`... -/
example : Forward parts [4, 3, 2, 1, 0] ∧ (∃ i f, parts.ts[1]? = some i ∧ Reads parts i f ∧ i.requiresGrad = true ∧
      i.view.offset = 0 ∧ vol i.view.sizes ≠ 0 ∧ Spec.Small i.view.sizes i.dtype) ∧ ¬ Interior parts 1 ∧ requiresGrad parts 3 = false ∧
    Inner parts [1, 3] ∧ (∃ dw c, Denotes parts 3 dw [] fun _ => c) ∧ result (maxT 1 parts) = some 5 ∧
    thrown (minT 1 parts) = some .runtime := by
  refine ⟨parts_forward, ?_, by unfold Interior; decide +kernel, by decide +kernel, inner_of_check [1, 3] (by decide +kernel), ?_,
    by decide +kernel, by decide +kernel⟩
  · obtain ⟨_, f, ⟨i, hi, _, _, hr⟩, _⟩ := forward_denotes parts_forward (x := 1) (by simp)
    have : (parts.ts[1]?).map (fun i => (i.requiresGrad, i.view.offset, i.view.sizes, i.dtype)) = some (true, 0, [3], .f64) := by decide +kernel
    rw [hi] at this
    have this := Option.some.inj this
    simp only [Prod.mk.injEq] at this
    obtain ⟨e1, e2, e3, e4⟩ := this
    refine ⟨i, f, hi, hr, e1, e2, ?_, ?_⟩
    · rw [e3]; decide
    · rw [e3, e4]; unfold Spec.Small; decide
  · obtain ⟨dt, f, ⟨i, hi, h1, h2, hr⟩, _⟩ := forward_denotes parts_forward (x := 3) (by simp)
    have hs : i.view.sizes = [] := by rw [h2]; decide +kernel
    refine ⟨dt, f [], i, hi, h1, hs, hr.congr fun idx hidx => ?_⟩
    rw [hs] at hidx
    rw [show idx = [] by simpa using hidx.length]

/-- ... and the gradient is 7 at the maximum. -/
example : gradAfter 1 (do let m ← maxT 1; let q ← mulT m 3; let s ← sumT q; backward s) = some [0, 0, 7] := by decide +kernel

end INNC
