import Verif.Lemmas.Frame
import Verif.Lemmas.Build
import Verif.Lemmas.Slice
/-
Views: the tensor made by slice, transpose and reshape, and what it denotes.
-/
namespace INNC
open Spec
variable {F : Type}

/-- What `makeView` does: a new tensor `r` on storage `d`; the base gets a gradient if it requires one and has none;
nothing else changes. -/
structure ViewMade (h h' : Heap F) (base r : Nat) (b : Impl) (dt : DType) (v : Layout) (d : Nat) : Prop where
  id : r = h.ts.length
  obj : ∃ j, h'.ts[r]? = some j ∧ j.dtype = dt ∧ j.view = v ∧ j.data = d ∧ j.requiresGrad = b.requiresGrad ∧
    j.retainGrad = false ∧
    j.gradFn = (if b.requiresGrad then some ⟨.noBack, [base], 0, 0, 0⟩ else none) ∧
    (b.requiresGrad = false → j.grad = none)
  pres : Preserves h h'
  other : ∀ (u : Nat) (i : Impl), u ≠ base → h.ts[u]? = some i → h'.ts[u]? = some i
  same : b.requiresGrad = false → Extends h h'
  shared : b.requiresGrad = true → ∃ b' j g gi g' gj, h'.ts[base]? = some b' ∧ b' = { b with grad := some g } ∧
    h'.ts[g]? = some gi ∧ (∀ g0, b.grad = some g0 → g = g0) ∧
    (b.grad = none → gi.dtype = b.dtype ∧ gi.view = b.view ∧ gi.data = h.st.length ∧ gi.requiresGrad = false ∧
      h'.st[gi.data]? = some ⟨b.dtype, wrapU (b.dtype.size * numel b.view.sizes), none⟩ ∧ gi.gradFn = none ∧ gi.grad = none) ∧
    h'.ts[r]? = some j ∧ j.grad = some g' ∧ h'.ts[g']? = some gj ∧ gj.data = gi.data ∧ gj.view = v ∧ gj.dtype = dt ∧
    gj.requiresGrad = false ∧ gj.gradFn = none ∧ gj.grad = none
  only : ∀ (u : Nat) (i : Impl), h'.ts[u]? = some i → u < h.ts.length ∨ u = r ∨ (i.grad = none ∧ i.gradFn = none ∧ i.requiresGrad = false)

theorem getElem?_append_some {α : Type} {l : List α} {k : Nat} {a : α} (h : l[k]? = some a) (m : List α) :
    (l ++ m)[k]? = some a := by
  rw [List.getElem?_append_left (getElem?_lt h)]; exact h

/-- A tensor object without flags and gradient. -/
abbrev mkI (dt : DType) (v : Layout) (d : Nat) : Impl := ⟨dt, v, d, none, false, false, none⟩

theorem share_some {H : Heap F} {dst frm g : Nat} {f t gi : Impl} (hf : H.ts[frm]? = some f) (ht : H.ts[dst]? = some t)
    (hgr : f.grad = some g) (hg : H.ts[g]? = some gi) :
    Tensor.shareGradStorage dst frm H = .ok () { H with
      ts := (H.ts ++ [(mkI t.dtype t.view gi.data)]).set dst { t with grad := some H.ts.length } } := by
  unfold Tensor.shareGradStorage
  rw [M.bind_ok (getT_ok hf), hgr]
  have e1 : (pure g : M F Nat) H = .ok g H := rfl
  dsimp only
  rw [M.bind_ok e1, M.bind_ok (getT_ok hg), M.bind_ok (getT_ok ht),
    M.bind_ok (x := createOn t.dtype t.view gi.data) (a := H.ts.length) rfl,
    M.bind_ok (getT_ok (getElem?_append_some ht _))]
  rfl

theorem share_none {H : Heap F} {dst frm : Nat} {f t : Impl} (hf : H.ts[frm]? = some f) (ht : H.ts[dst]? = some t)
    (hne : dst ≠ frm) (hgr : f.grad = none) :
    Tensor.shareGradStorage dst frm H = .ok () { H with
      st := H.st ++ [⟨f.dtype, wrapU (f.dtype.size * numel f.view.sizes), none⟩]
      ts := ((H.ts ++ [(mkI f.dtype f.view H.st.length)]).set frm { f with grad := some H.ts.length } ++
        [(mkI t.dtype t.view H.st.length)]).set dst { t with grad := some (H.ts.length + 1) } } := by
  unfold Tensor.shareGradStorage
  rw [M.bind_ok (getT_ok hf), hgr]
  dsimp only
  have e1 : create f.dtype f.view false H = .ok H.ts.length { H with
      st := H.st ++ [⟨f.dtype, wrapU (f.dtype.size * numel f.view.sizes), none⟩]
      ts := H.ts ++ [(mkI f.dtype f.view H.st.length)] } := rfl
  have hf1 := getElem?_append_some hf [mkI f.dtype f.view H.st.length]
  have ht1 := getElem?_append_some ht [mkI f.dtype f.view H.st.length]
  have hlt := getElem?_lt hf
  have hlt2 := getElem?_lt ht
  have ht2 : ((H.ts ++ [(mkI f.dtype f.view H.st.length)]).set frm
      { f with grad := some H.ts.length })[dst]? = some t := by
    rw [List.getElem?_set_ne (by omega)]; exact ht1
  rw [M.bind_ok e1, M.bind_ok (getT_ok hf1), M.bind_ok (x := setT frm _) (a := ()) rfl,
    M.bind_ok (x := pure H.ts.length) (a := H.ts.length) rfl]
  rw [M.bind_ok (getT_ok (i := (mkI f.dtype f.view H.st.length))
    (by rw [List.getElem?_set_ne (by omega)]; simp)), M.bind_ok (getT_ok ht2),
    M.bind_ok (x := createOn _ _ _) (a := H.ts.length + 1) (by simp [createOn, newT]; rfl),
    M.bind_ok (getT_ok (getElem?_append_some ht2 _))]
  rfl

theorem makeView_ok {h : Heap F} {base : Nat} {b : Impl} (hb : h.ts[base]? = some b)
    (hg : b.requiresGrad = true → ∀ g, b.grad = some g → g < h.ts.length) (dt : DType) (v : Layout) (d : Nat) :
    ∃ h', Tensor.makeView dt v d base h = .ok h.ts.length h' ∧ ViewMade h h' base h.ts.length b dt v d := by
  have hlt := getElem?_lt hb
  have e0 : createOn dt v d h = .ok h.ts.length { h with ts := h.ts ++ [mkI dt v d] } := rfl
  have hb1 := getElem?_append_some hb [mkI dt v d]
  unfold Tensor.makeView
  rw [M.bind_ok e0, M.bind_ok (getT_ok hb1)]
  cases hr : b.requiresGrad with
  | false =>
    have hext : Extends h { h with ts := h.ts ++ [mkI dt v d] } :=
      ⟨fun t i hi => getElem?_append_some hi _, fun _ _ h => h⟩
    refine ⟨_, rfl, rfl, ⟨mkI dt v d, by simp, rfl, rfl, rfl, by rw [hr], rfl, by simp [hr], fun _ => rfl⟩,
      hext.preserves, fun u i _ hi => hext.ts u i hi, fun _ => hext, fun hc => by { rw [hr] at hc; simp at hc },
      fun u i hi => by have := getElem?_lt hi; simp only [List.length_append, List.length_singleton] at this; omega⟩
  | true =>
    rw [if_neg (by simp)]
    have e1 := setGradFn_ok (F := F) (h := { h with ts := h.ts ++ [mkI dt v d] })
      (t := h.ts.length) (i := (mkI dt v d)) (by simp) .noBack [base]
    rw [M.bind_ok e1]
    dsimp only
    generalize hj0 : (Impl.mk dt v d none true false (some ⟨.noBack, [base], 0, 0, 0⟩)) = j0
    have hset : (h.ts ++ [mkI dt v d]).set h.ts.length j0 = h.ts ++ [j0] := by
      simp [List.set_append]
    rw [hset]
    have hbH := getElem?_append_some hb [j0]
    have htH : (h.ts ++ [j0])[h.ts.length]? = some j0 := by simp
    cases hgr : b.grad with
    | some g =>
      have hgl := hg hr g hgr
      obtain ⟨gi, hgi⟩ : ∃ gi, h.ts[g]? = some gi := ⟨_, List.getElem?_eq_getElem hgl⟩
      have e2 := share_some (H := { h with ts := h.ts ++ [j0] }) hbH htH hgr (getElem?_append_some hgi [j0])
      rw [M.bind_ok e2]
      dsimp only
      generalize hts : ((h.ts ++ [j0]) ++ [mkI j0.dtype j0.view gi.data]).set h.ts.length
            { j0 with grad := some (h.ts ++ [j0]).length } = ts
      have hk : ∀ (u : Nat) (i : Impl), h.ts[u]? = some i → ts[u]? = some i := by
        intro u i hi
        have := getElem?_lt hi
        rw [← hts, List.getElem?_set_ne (by omega)]
        exact getElem?_append_some (getElem?_append_some hi _) _
      have hjr : ts[h.ts.length]? = some { j0 with grad := some (h.ts ++ [j0]).length } := by
        rw [← hts]; exact List.getElem?_set_self (by simp)
      refine ⟨_, rfl, rfl, ⟨_, hjr, ?_⟩, ⟨fun u i hi => ⟨i, hk u i hi, rfl, rfl, rfl⟩, fun _ _ h => h⟩,
        fun u i _ hi => hk u i hi, fun hc => by { rw [hr] at hc; simp at hc }, fun _ => ?_, fun u i hi => ?_⟩
      · subst hj0; refine ⟨rfl, rfl, rfl, hr.symm, rfl, by rw [if_pos hr], fun hc => by rw [hr] at hc; simp at hc⟩
      · refine ⟨b, _, g, gi, (h.ts ++ [j0]).length, (mkI j0.dtype j0.view gi.data), hk _ _ hb, ?_,
          hk _ _ hgi, fun g0 e => ?_, fun e => ?_, hjr, rfl, ?_, rfl, by subst hj0; rfl, by subst hj0; rfl, rfl, rfl, rfl⟩
        · cases b; simp_all
        · rw [hgr] at e; simpa using e
        · rw [hgr] at e; simp at e
        · rw [← hts, List.getElem?_set_ne (by simp)]; simp
      · have hl := getElem?_lt hi
        have hlen : ts.length = h.ts.length + 2 := by rw [← hts]; simp
        simp only at hi hl
        by_cases hu : u ≤ h.ts.length
        · omega
        · obtain rfl : u = h.ts.length + 1 := by omega
          have : ts[h.ts.length + 1]? = some (mkI j0.dtype j0.view gi.data) := by
            rw [← hts, List.getElem?_set_ne (by simp)]; simp
          rw [this] at hi
          obtain rfl := Option.some.inj hi
          exact .inr (.inr ⟨rfl, rfl, rfl⟩)
    | none =>
      have e2 := share_none (H := { h with ts := h.ts ++ [j0] }) hbH htH (by omega) hgr
      rw [M.bind_ok e2]
      dsimp only
      generalize hts : (((h.ts ++ [j0]) ++ [mkI b.dtype b.view h.st.length]).set base
        { b with grad := some (h.ts ++ [j0]).length } ++
        [mkI j0.dtype j0.view h.st.length]).set h.ts.length
            { j0 with grad := some ((h.ts ++ [j0]).length + 1) } = ts
      have hk : ∀ (u : Nat) (i : Impl), u ≠ base → h.ts[u]? = some i → ts[u]? = some i := by
        intro u i hu hi
        have := getElem?_lt hi
        rw [← hts, List.getElem?_set_ne (by omega)]
        refine getElem?_append_some ?_ _
        rw [List.getElem?_set_ne (by omega)]
        exact getElem?_append_some (getElem?_append_some hi _) _
      have hbr : ts[base]? = some { b with grad := some (h.ts ++ [j0]).length } := by
        rw [← hts, List.getElem?_set_ne (by omega)]
        exact getElem?_append_some (List.getElem?_set_self (by simp; omega)) _
      have hjr : ts[h.ts.length]? = some { j0 with grad := some ((h.ts ++ [j0]).length + 1) } := by
        rw [← hts]; exact List.getElem?_set_self (by simp; omega)
      have hgi : ts[(h.ts ++ [j0]).length]? = some (mkI b.dtype b.view h.st.length) := by
        rw [← hts, List.getElem?_set_ne (by simp)]
        refine getElem?_append_some ?_ _
        rw [List.getElem?_set_ne (by simp; omega)]; simp
      have hgj : ts[(h.ts ++ [j0]).length + 1]? = some (mkI j0.dtype j0.view h.st.length) := by
        rw [← hts, List.getElem?_set_ne (by simp; omega)]
        rw [List.getElem?_append_right (by simp)]; simp
      refine ⟨_, rfl, rfl, ⟨_, hjr, ?_⟩, ⟨fun u i hi => ?_, fun u s hs => getElem?_append_some hs _⟩,
        hk, fun hc => by { rw [hr] at hc; simp at hc }, fun _ => ?_, fun u i hi => ?_⟩
      · subst hj0; refine ⟨rfl, rfl, rfl, hr.symm, rfl, by rw [if_pos hr], fun hc => by rw [hr] at hc; simp at hc⟩
      · by_cases hu : u = base
        · subst hu
          rw [hb] at hi
          obtain rfl := Option.some.inj hi
          exact ⟨_, hbr, rfl, rfl, rfl⟩
        · exact ⟨i, hk u i hu hi, rfl, rfl, rfl⟩
      · refine ⟨_, _, _, _, _, _, hbr, rfl, hgi, fun g0 e => ?_, fun _ => ⟨rfl, rfl, rfl, rfl, by simp⟩, hjr, rfl, hgj, rfl,
          by subst hj0; rfl, by subst hj0; rfl, rfl, rfl, rfl⟩
        rw [hgr] at e; simp at e
      · have hl := getElem?_lt hi
        have hlen : ts.length = h.ts.length + 3 := by rw [← hts]; simp
        simp only at hi hl
        by_cases hu : u ≤ h.ts.length
        · omega
        · have hl2 : (h.ts ++ [j0]).length = h.ts.length + 1 := by simp
          rw [hl2] at hgi hgj
          rcases (by omega : u = h.ts.length + 1 ∨ u = h.ts.length + 1 + 1) with rfl | rfl
          · rw [hgi] at hi
            obtain rfl := Option.some.inj hi
            exact .inr (.inr ⟨rfl, rfl, rfl⟩)
          · rw [hgj] at hi
            obtain rfl := Option.some.inj hi
            exact .inr (.inr ⟨rfl, rfl, rfl⟩)

end INNC
