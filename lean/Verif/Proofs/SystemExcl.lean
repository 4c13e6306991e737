import Verif.Proofs.SystemAgree

/-! Histories in which no projection is shared by two lenses and no lens by two projections. -/

set_option linter.constructorNameAsVariable false

open Classical

namespace Sys

/-- Every lens is up to date, and bound to the projection of its cameras. -/
structure InvX (s : St) : Prop where
  bound : Bound s
  fresh : ∀ l, FreshL s l
  cam : ∀ c C L, s.cams c = some C → s.lenses C.lens = some L → L.kind ≠ .none → L.proj = some C.proj

theorem InvX.empty : InvX St.empty :=
  ⟨fun _ _ _ h => (by injection h), fun _ _ h => (by injection h), fun _ _ _ h => (by injection h)⟩

theorem camX_pres {s s' : St} (h : ∀ c C L, s.cams c = some C → s.lenses C.lens = some L → L.kind ≠ .none → L.proj = some C.proj)
    (hp : Pres s s') : ∀ c C L, s'.cams c = some C → s'.lenses C.lens = some L → L.kind ≠ .none → L.proj = some C.proj := by
  intro c C L hc hl hk
  rw [hp.cams] at hc
  have e := hp.lenses C.lens
  rw [hl] at e
  cases e' : s.lenses C.lens with
  | none => rw [e'] at e; cases e
  | some L' =>
    rw [e'] at e
    simp only [Option.map_some, Option.some.injEq, Prod.mk.injEq] at e
    rw [e.2]; exact h c C L' hc e' (by rw [← e.1]; exact hk)

theorem InvX.step {s : St} (hi : Inv s) (hd : Dicts s) (h : InvX s) {op : Op} (hok : s.ok op) (hx : s.excl op) : InvX (s.step op) := by
  by_cases hp : op.isParam
  · obtain ⟨S, s', order, e, hu, hS, hf⟩ := step_upd hi.struct hok hp
    have hpr := step_pres hi.struct hok hp
    refine ⟨h.bound.pres hpr, ?_, camX_pres h.cam hpr⟩
    rw [e]; exact hu.freshL hi.struct h.bound hS hf h.fresh
  · cases op with
    | newOrient o k args =>
      refine ⟨newOrient_bound h.bound o k args, fun l => newOrient_freshL (h.fresh l) o k args, ?_⟩
      exact camX_pres (s := preOrient s o k args) h.cam (Pres.runMatrix _ o)
    | newProj p k args attr =>
      exact ⟨newProj_bound h.bound hok.1 k args attr, fun l => newProj_freshL h.bound (h.fresh l) hok.1 k args attr, h.cam⟩
    | newLens l k args =>
      refine ⟨newLens_bound h.bound l k args, newLens_freshL h.fresh l k args, ?_⟩
      refine camX_pres (s := preLens s l k args) ?_ (Pres.runLens _ l)
      intro c C L hc hl hk
      have hc' : s.cams c = some C := hc
      obtain ⟨P, O, L', -, -, h3, -, -⟩ := hd.cam c C hc'
      have hne : C.lens ≠ l := by
        rintro e; rw [e, show s.lenses l = none from hok] at h3; cases h3
      have : s.lenses C.lens = some L := by simpa [preLens, Function.update_apply, hne] using hl
      exact h.cam c C L hc' this hk
    | newCam c p o l =>
      obtain ⟨hp0, ho0, hl0⟩ := hok
      obtain ⟨L0, hL0⟩ := Option.ne_none_iff_exists'.1 hl0
      by_cases hk0 : L0.kind = .none
      · have e : s.setProjection l p = s := setProjection_none fun L hL => by rw [hL0] at hL; cases hL; exact hk0
        have e' : s.step (.newCam c p o l) = camTail s c p o l := by
          show s.newCam c p o l = _; rw [newCam_eq, e]
        rw [e']
        refine ⟨camTail_bound h.bound c p o l, fun l' => camTail_freshL (h.fresh l') c p o l, ?_⟩
        intro c' C L hc hl hk
        simp only [camTail, Function.update_apply] at hc
        split_ifs at hc with ec
        · cases hc
          have : s.lenses l = some L := hl
          rw [hL0] at this; cases this; exact absurd hk0 hk
        · exact h.cam c' C L hc hl hk
      · obtain ⟨hb, hfree⟩ := hx L0 hL0 hk0
        refine ⟨camTail_bound (setProjection_bound h.bound hp0 hfree) c p o l,
          fun l' => camTail_freshL (setProjection_freshL h.fresh l p l') c p o l, ?_⟩
        intro c' C L hc hl hk
        have hl' : (s.setProjection l p).lenses C.lens = some L := hl
        obtain ⟨L', h1, h2, h3⟩ := setProjection_lens (p := p) hL0
        have hc' : (Function.update (s.setProjection l p).cams c (some ⟨p, o, l, (camTail (s.setProjection l p) c p o l).dict (.cam c)⟩)) c' = some C := by
          have hh : (s.newCam c p o l).cams c' = some C := hc
          simp only [newCam_eq, camTail, Function.update_apply] at hh ⊢
          split_ifs at hh ⊢ with e
          · rw [← hh]; simp [St.dict]
          · exact hh
        rw [Function.update_apply, setProjection_cams] at hc'
        split_ifs at hc' with ec
        · cases hc'
          rw [h1] at hl'; cases hl'
          exact h3 hk0
        · by_cases el : C.lens = l
          · rw [el, h1] at hl'
            cases hl'
            have := h.cam c' C L0 hc' (by rw [el]; exact hL0) hk0
            rw [h3 hk0]
            rcases hb with hb | hb
            · rw [hb] at this; cases this
            · rw [← hb]; exact this
          · have : (s.setProjection l p).lenses C.lens = s.lenses C.lens := by
              rw [setProjection_eq hL0 hk0, runLens_lenses_ne _ el, preBind_lenses, Function.update_apply, if_neg el]
            rw [this] at hl'
            exact h.cam c' C L hc' hl' hk
    | newGroup g d => exact ⟨h.bound, h.fresh, h.cam⟩
    | setTrace v t => exact ⟨h.bound, h.fresh, h.cam⟩
    | _ => exact absurd trivial hp

theorem ReachX.reach {s : St} (h : ReachX s) : Reach s := by
  induction h with
  | start => exact .start
  | step _ hok _ ih => exact .step ih hok

theorem ReachX.invX {s : St} (h : ReachX s) : InvX s := by
  induction h with
  | start => exact InvX.empty
  | step hr hok hx ih => exact ih.step hr.reach.inv hr.reach.dicts hok hx

end Sys
