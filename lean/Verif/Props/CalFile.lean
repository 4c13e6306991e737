import Verif.Model.CalFile
import Verif.Props.QInput

/-! # C143: saving, loading and adding do what the button says -/

namespace CalFile

variable {F K I : Type}

/-- Each button knows the name it sent last. -/
structure Ok (s : St F K I) : Prop where
  save : QInput.Kept s.save
  load : QInput.Kept s.load
  add : QInput.Kept s.add

theorem chosen_same {b : QInput.St F} (h : QInput.Kept b) {f : F} (hf : b.sent.head? = some f) : (chosen b f).2 = false := by
  have hl : b.last = some f := h.trans hf
  have e : (b.setValue f).emitSignal = b.setValue f := QInput.emitSignal_same (s := b.setValue f) hl
  have : (b.act (.enter f)).sent = b.sent := by
    show (b.setValue f).emitSignal.sent = b.sent
    rw [e]; rfl
  simp [chosen, this]

theorem chosen_new {b : QInput.St F} (h : QInput.Kept b) {f : F} (hf : b.sent.head? ≠ some f) : (chosen b f).2 = true := by
  have hl : b.last ≠ some f := fun e => hf (h.symm.trans e)
  have e := QInput.emitSignal_new (s := b.setValue f) hl
  have : (b.act (.enter f)).sent = f :: b.sent := by
    show (b.setValue f).emitSignal.sent = _
    rw [e]; rfl
  simp [chosen, this]

theorem chosen_head {b : QInput.St F} (h : QInput.Kept b) (f : F) : (chosen b f).1.sent.head? = some f := by
  have hk : QInput.Kept (b.act (.enter f)) := QInput.kept_act h _
  show (b.act (.enter f)).sent.head? = some f
  rw [← hk]
  show (b.setValue f).emitSignal.last = some f
  by_cases hl : b.last = some f
  · rw [QInput.emitSignal_same (s := b.setValue f) hl]; exact hl
  · rw [QInput.emitSignal_new (s := b.setValue f) hl]; rfl

theorem chosen_kept {b : QInput.St F} (h : QInput.Kept b) (f : F) : QInput.Kept (chosen b f).1 := QInput.kept_act h _

theorem ok_act (batch : F → List I) {s : St F K I} (h : Ok s) (a : Act F K) : Ok (s.act batch a) := by
  cases a with
  | fit k => exact ⟨h.1, h.2, h.3⟩
  | save f =>
    simp only [St.act]
    split
    · exact h
    · split <;> exact ⟨chosen_kept h.1 f, h.2, h.3⟩
  | load f =>
    simp only [St.act]
    split
    · exact h
    · split <;> exact ⟨h.1, chosen_kept h.2 f, h.3⟩
  | add f =>
    simp only [St.act]
    split <;> exact ⟨h.1, h.2, chosen_kept h.3 f⟩
  | clear => exact ⟨h.1, h.2, h.3⟩
  | extern f k => exact ⟨h.1, h.2, h.3⟩

theorem ok_after (batch : F → List I) (cwd : F) (disk : F → Option K) (as : List (Act F K)) : Ok (after batch cwd disk as) := by
  unfold after
  suffices H : ∀ s : St F K I, Ok s → Ok (as.foldl (St.act batch) s) from H _ ⟨rfl, rfl, rfl⟩
  induction as with
  | nil => exact fun _ h => h
  | cons a as ih => exact fun s h => ih _ (ok_act batch h a)

end CalFile

open CalFile

/-- **C143** When the name chosen in the dialog is not the one of the last time: Save writes the current calibration to that file, leaves all
other files and the calibration; Load makes the calibration of the file the current one and leaves the files; Add appends the images of the
batch. -/
theorem C143_first_partial {F K I : Type} (batch : F → List I) (cwd : F) (disk : F → Option K) (as : List (Act F K)) (f : F) :
    let s := CalFile.after batch cwd disk as
    (∀ k, s.calibration = some k → s.save.sent.head? ≠ some f →
      (s.act batch (.save f)).disk f = some k ∧ (∀ g, g ≠ f → (s.act batch (.save f)).disk g = s.disk g) ∧
      (s.act batch (.save f)).calibration = some k ∧ (s.act batch (.save f)).save.sent.head? = some f) ∧
    (∀ k, s.disk f = some k → s.load.sent.head? ≠ some f →
      (s.act batch (.load f)).calibration = some k ∧ (s.act batch (.load f)).disk = s.disk ∧
      (s.act batch (.load f)).load.sent.head? = some f) ∧
    (s.add.sent.head? ≠ some f → (s.act batch (.add f)).images = s.images ++ batch f ∧
      (s.act batch (.add f)).add.sent.head? = some f) := by
  intro s
  have h : Ok s := ok_after batch cwd disk as
  refine ⟨fun k hk hf => ?_, fun k hk hf => ?_, fun hf => ?_⟩
  · have e := chosen_new h.save hf
    have hh := chosen_head h.save f
    simp only [St.act, hk, e, if_true]
    exact ⟨by simp, fun g hg => by simp [hg], trivial, hh⟩
  · have e := chosen_new h.load hf
    have hh := chosen_head h.load f
    simp only [St.act, hk, e, if_true]
    exact ⟨trivial, trivial, hh⟩
  · have e := chosen_new h.add hf
    have hh := chosen_head h.add f
    simp only [St.act, e, if_true]
    exact ⟨trivial, hh⟩

/-- **C143** A calibration that was saved comes back: after Save to `f`, whatever is fitted, saved to other files, loaded from other files,
added or cleared, and written to other files by other programs, Load from `f` makes it the current calibration. -/
theorem C143_roundtrip_partial {F K I : Type} (batch : F → List I) (cwd : F) (disk : F → Option K) (as bs : List (Act F K)) (f : F) (k : K)
    (hk : (CalFile.after batch cwd disk as).calibration = some k) (hs : (CalFile.after batch cwd disk as).save.sent.head? ≠ some f)
    (hl : (CalFile.after batch cwd disk as).load.sent.head? ≠ some f)
    (hb : ∀ b ∈ bs, b ≠ .save f ∧ b ≠ .load f ∧ ∀ k', b ≠ .extern f k') :
    (CalFile.after batch cwd disk (as ++ .save f :: bs ++ [.load f])).calibration = some k := by
  have h : Ok (CalFile.after batch cwd disk as) := ok_after batch cwd disk as
  have h1 := (C143_first_partial batch cwd disk as f).1 k hk hs
  have hload : ((CalFile.after batch cwd disk as).act batch (.save f)).load = (CalFile.after batch cwd disk as).load := by
    simp only [St.act, hk]; split <;> rfl
  have key : ∀ (bs : List (Act F K)) (s : St F K I), Ok s → s.disk f = some k → s.load.sent.head? ≠ some f →
      (∀ b ∈ bs, b ≠ .save f ∧ b ≠ .load f ∧ ∀ k', b ≠ .extern f k') →
      Ok (bs.foldl (St.act batch) s) ∧ (bs.foldl (St.act batch) s).disk f = some k ∧ (bs.foldl (St.act batch) s).load.sent.head? ≠ some f := by
    intro bs
    induction bs with
    | nil => exact fun s h1 h2 h3 _ => ⟨h1, h2, h3⟩
    | cons b bs ih =>
      intro s g1 g2 g3 g4
      obtain ⟨n1, n2, n3⟩ := g4 b List.mem_cons_self
      refine ih (s.act batch b) (ok_act batch g1 b) ?_ ?_ (fun b' hb' => g4 b' (List.mem_cons_of_mem _ hb'))
      · cases b with
        | fit _ => exact g2
        | save g =>
          have hne : f ≠ g := fun e => n1 (by rw [e])
          simp only [St.act]
          split
          · exact g2
          · split
            · simpa [Function.update, hne] using g2
            · exact g2
        | load g =>
          simp only [St.act]
          split
          · exact g2
          · split <;> exact g2
        | add g => simp only [St.act]; split <;> exact g2
        | clear => exact g2
        | extern g k' =>
          have hne : f ≠ g := fun e => n3 k' (by rw [e])
          simpa [St.act, Function.update, hne] using g2
      · cases b with
        | fit _ => exact g3
        | save g =>
          simp only [St.act]
          split
          · exact g3
          · split <;> exact g3
        | load g =>
          have hne : f ≠ g := fun e => n2 (by rw [e])
          have hh : (chosen s.load g).1.sent.head? ≠ some f := by
            rw [chosen_head g1.load g]; intro e; exact hne (Option.some.inj e).symm
          simp only [St.act]
          split
          · exact g3
          · split <;> exact hh
        | add g => simp only [St.act]; split <;> exact g3
        | clear => exact g3
        | extern g k' => exact g3
  obtain ⟨k1, k2, k3⟩ := key bs _ (ok_act batch h (.save f)) h1.1 (by rw [hload]; exact hl) hb
  have e : CalFile.after batch cwd disk (as ++ .save f :: bs ++ [.load f]) =
      (bs.foldl (St.act batch) ((CalFile.after batch cwd disk as).act batch (.save f))).act batch (.load f) := by
    unfold CalFile.after; simp [List.foldl_append]
  rw [e]
  generalize bs.foldl (St.act batch) ((CalFile.after batch cwd disk as).act batch (.save f)) = t at k1 k2 k3 ⊢
  simp only [St.act, k2, chosen_new k1.load k3, if_true]

/-- The second time in a row the same name has no effect, without a message: Save to the file that was saved to last writes nothing, Load
of the file that was loaded last and Add of the file that was added last do nothing, whatever happened in between.  So for any two
calibrations, after fitting the second one and saving it to the same file, the file contains the first one. -/
theorem C143_again_violated {F K I : Type} (batch : F → List I) (cwd : F) (disk : F → Option K) (as : List (Act F K)) (f : F) :
    let s : St F K I := CalFile.after batch cwd disk as
    (s.save.sent.head? = some f → (s.act batch (.save f)).disk = s.disk) ∧
    (s.load.sent.head? = some f → (s.act batch (.load f)).calibration = s.calibration) ∧
    (s.add.sent.head? = some f → (s.act batch (.add f)).images = s.images) ∧
    (∀ k k', s.save.sent.head? ≠ some f → let t := CalFile.after (I := I) batch cwd disk (as ++ [.fit k, .save f, .fit k', .save f])
      t.calibration = some k' ∧ t.disk f = some k) ∧
    (∀ k k', s.disk f = some k → s.load.sent.head? ≠ some f →
      (CalFile.after (I := I) batch cwd disk (as ++ [.load f, .fit k', .load f])).calibration = some k') ∧
    (s.add.sent.head? ≠ some f → (CalFile.after (I := I) batch cwd disk (as ++ [.add f, .clear, .add f])).images = []) := by
  intro s
  have h : Ok s := ok_after batch cwd disk as
  have s1 : ∀ t : St F K I, Ok t → t.save.sent.head? = some f → (t.act batch (.save f)).disk = t.disk ∧
      (t.act batch (.save f)).calibration = t.calibration := by
    intro t ht hf
    have e := chosen_same ht.save hf
    simp only [St.act]
    split
    · exact ⟨rfl, rfl⟩
    · simp [e]
  have s2 : ∀ t : St F K I, Ok t → t.load.sent.head? = some f → (t.act batch (.load f)).calibration = t.calibration := by
    intro t ht hf
    have e := chosen_same ht.load hf
    simp only [St.act]
    split
    · rfl
    · simp only [e, Bool.false_eq_true, if_false]
  have s3 : ∀ t : St F K I, Ok t → t.add.sent.head? = some f → (t.act batch (.add f)).images = t.images := by
    intro t ht hf
    have e := chosen_same ht.add hf
    simp only [St.act, e, Bool.false_eq_true, if_false]
  refine ⟨fun hf => (s1 s h hf).1, s2 s h, s3 s h, fun k k' hf => ?_, fun k k' hd hf => ?_, fun hf => ?_⟩
  · have e : CalFile.after (I := I) batch cwd disk (as ++ [.fit k, .save f, .fit k', .save f]) =
        (((s.act batch (.fit k)).act batch (.save f)).act batch (.fit k')).act batch (.save f) := by
      unfold CalFile.after; rw [List.foldl_append]; rfl
    have a1 := (C143_first_partial batch cwd disk (as ++ [.fit k]) f).1 k
    rw [show CalFile.after (I := I) batch cwd disk (as ++ [.fit k]) = s.act batch (.fit k) by
      unfold CalFile.after; rw [List.foldl_append]; rfl] at a1
    obtain ⟨b1, -, -, b4⟩ := a1 rfl hf
    have := s1 (((s.act batch (.fit k)).act batch (.save f)).act batch (.fit k'))
      (ok_act _ (ok_act _ (ok_act _ h _) _) _) b4
    simp only [e]
    exact ⟨this.2, by rw [this.1]; exact b1⟩
  · have e : CalFile.after (I := I) batch cwd disk (as ++ [.load f, .fit k', .load f]) =
        ((s.act batch (.load f)).act batch (.fit k')).act batch (.load f) := by
      unfold CalFile.after; rw [List.foldl_append]; rfl
    obtain ⟨-, -, b3⟩ := (C143_first_partial batch cwd disk as f).2.1 k hd hf
    rw [e]
    exact s2 ((s.act batch (.load f)).act batch (.fit k')) (ok_act _ (ok_act _ h _) _) b3
  · have e : CalFile.after (I := I) batch cwd disk (as ++ [.add f, .clear, .add f]) =
        ((s.act batch (.add f)).act batch .clear).act batch (.add f) := by
      unfold CalFile.after; rw [List.foldl_append]; rfl
    obtain ⟨-, b3⟩ := (C143_first_partial batch cwd disk as f).2.2 hf
    rw [e]
    exact s3 ((s.act batch (.add f)).act batch .clear) (ok_act _ (ok_act _ h _) _) b3

/-- The hypotheses can be met: after a fit, nothing was saved or loaded. -/
example : let s := CalFile.after (I := Unit) (fun _ : ℕ => []) 0 (fun _ => (none : Option ℕ)) [.fit 7]
    s.calibration = some 7 ∧ s.save.sent.head? ≠ some 3 ∧ s.load.sent.head? ≠ some 3 := by
  simp [CalFile.after, St.act, St.start, QInput.St.new]
