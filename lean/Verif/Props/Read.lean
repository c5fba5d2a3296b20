import Verif.Props.Getattr

/-!
# C79: reading a field of the form that is being mapped, from a hook

`pilo/fields.py:622-653`: `Field.__get__` when the form is being mapped but the context is that of one of its fields:
the context is rewound to the form (`pilo/context.py:128-156`) for mapping the field.
-/

namespace Pilo
variable {P : Type} {I : PathOps P} {L : Lib} {C : Classes} {W : LawfulPath I}

namespace Read
open Getattr

/-- `s1` is `s` as it was at the form: the frames above the form are hidden, and so are the keys they had put on the path. -/
structure AtForm (I : PathOps P) (id : Nat) (s s1 : St P) : Prop where
  stack : ∃ above, s.stack = above ++ s1.stack ∧ (∀ fr ∈ above, fr.parent ≠ some (.form id)) ∧
    (∃ fr rest, s1.stack = fr :: rest ∧ fr.parent = some (.form id)) ∧
    ∀ r p, s.paths[r]? = some p → ∃ q, s1.paths[r]? = some q ∧
      I.keys p = I.keys q ++ if curPath s1.stack = some (some r) then pushedBy above else []
  errs : s1.errs = s.errs
  forms : s1.forms = s.forms
  /-- It is the state in which `ctx.rewind` runs the body. -/
  rewound : s1 = (rewind I (isFormFrame id) s).2

theorem restoreFrames_keeps (frames : List Frame) (s : St P) {s3 : St P} (h : restoreFrames I frames s = (.ok (), s3)) :
    s3.errs = s.errs ∧ s3.forms = s.forms := by
  have hon : ∀ {α : Type} (f : P → Except Exc α × P) (s : St P), (onPath f s).2.errs = s.errs ∧ (onPath f s).2.forms = s.forms := by
    intro α f s
    unfold onPath
    split
    · exact ⟨rfl, rfl⟩
    · exact ⟨rfl, rfl⟩
    · split <;> exact ⟨rfl, rfl⟩
  have hap : ∀ (ks : List Val) (s : St P), (appendKeys I ks s).2.errs = s.errs ∧ (appendKeys I ks s).2.forms = s.forms := by
    intro ks
    induction ks with
    | nil => intro s; exact ⟨rfl, rfl⟩
    | cons k ks ih =>
      intro s
      unfold appendKeys
      rcases e : onPath (pathAppend I k) s with ⟨r, s'⟩
      have h1 := hon (pathAppend I k) s
      rw [e] at h1
      cases r with
      | error x => rw [M.bind_error e]; exact h1
      | ok x => rw [M.bind_ok e]; exact ⟨(ih s').1.trans h1.1, (ih s').2.trans h1.2⟩
  unfold restoreFrames at h
  split at h
  · cases h; exact ⟨rfl, rfl⟩
  · obtain ⟨a, s2, h1, h2⟩ := bindOk h
    cases h2
    unfold whenSrcPath at h1
    obtain ⟨b, s4, h3, h4⟩ := bindOk h1
    have h5 : s4 = s := by
      unfold ctxGet at h3
      split at h3
      · cases h3; rfl
      · cases h3
    subst h5
    cases b with
    | none => cases h4; exact ⟨rfl, rfl⟩
    | some r =>
      have := hap (segKeys frames.reverse) s4
      have h4 : appendKeys I (segKeys frames.reverse) s4 = (.ok a, s2) := h4
      rw [h4] at this
      exact this

/-- Reading in a rewound context. -/
theorem get_rewound {s : St P} {id : Nat} {name : String} {f : Field} (hf : f.key = .str name) (hi : Inv W s)
    (h : s.entry id name = none) (hform : s.env.form ≠ none) (hpar : s.env.parent ≠ some (.form id))
    (hin : ¬ Idle s id) (rec : Rec P) (hr : Keeps W (rec f .NONE)) :
    ∃ s1 frames, AtForm I id s s1 ∧ Inv W s1 ∧ rewind I (isFormFrame id) s = (.ok frames, s1) ∧
      ((rec f .NONE s1).1 ≠ .error .rewindDidNotStop →
      ∃ s', fieldGet I rec f id s = ((rec f .NONE s1).1, s') ∧
        restoreFrames I frames (rec f .NONE s1).2 = (.ok (), s') ∧ s'.errs = (rec f .NONE s1).2.errs ∧
        s'.forms = (rec f .NONE s1).2.forms ∧ Ext W s s') := by
  have hex : ∃ i, s.stack.findIdx? (isFormFrame id) = some i := by
    cases hx : s.stack.findIdx? (isFormFrame id) with
    | some i => exact ⟨i, rfl⟩
    | none =>
      rw [List.findIdx?_eq_none_iff] at hx
      refine absurd (fun fr hfr hp => ?_) hin
      have := hx fr hfr
      unfold isFormFrame at this
      rw [hp] at this
      simp at this
  obtain ⟨i, hi1⟩ := hex
  obtain ⟨hlt, hat, hbefore⟩ := List.findIdx?_eq_some_iff_getElem.1 hi1
  have h0 : i ≠ 0 := by
    rintro rfl
    cases hst : s.stack with
    | nil => rw [hst] at hlt; simp at hlt
    | cons fr rest =>
      have h1 : isFormFrame id fr = true := by simpa [hst] using hat
      refine hpar ?_
      show lookup Frame.parent s.stack = _
      unfold isFormFrame at h1
      rw [hst, lookup, List.findSome?_cons, eq_of_beq h1]
  obtain ⟨s1, h1, h2, h3, h4, h5, h6, h7⟩ := rewind_spec hi hi1 h0
  refine ⟨s1, s.stack.take i, ⟨⟨s.stack.take i, ?_, ?_, ?_, ?_⟩, h4, h5, by rw [h1]⟩, h3, h1, fun hstop => ?_⟩
  · rw [h2, List.take_append_drop]
  · intro fr hfr hp
    obtain ⟨j, hj, rfl⟩ := List.mem_iff_getElem.1 hfr
    have hji : j < i := by rw [List.length_take] at hj; omega
    have := hbefore j hji
    rw [List.getElem_take] at hp
    unfold isFormFrame at this
    rw [hp] at this
    simp at this
  · rw [h2, List.drop_eq_getElem_cons hlt]
    exact ⟨_, _, rfl, eq_of_beq hat⟩
  · intro r p hp
    obtain ⟨q, hq, hk⟩ := h6 r p hp
    exact ⟨q, hq, by rw [hk, segKeys_pushedBy, h2]⟩
  · rcases hE : rec f .NONE s1 with ⟨x, s2⟩
    rw [hE] at hstop
    have hext := hr.run s1 h3
    rw [hE] at hext
    obtain ⟨s3, h8, h9⟩ := h7 s2 hext
    have h10 := restoreFrames_keeps _ _ h8
    refine ⟨s3, ?_, h8, h10.1, h10.2, h9⟩
    unfold fieldGet
    have g1 : formItems id s = (.ok ((s.forms[id]?).elim [] FormObj.items), s) := rfl
    rw [M.bind_ok g1]
    have g2 : dictGet? ((s.forms[id]?).elim [] FormObj.items) f.key = none := by
      rw [hf]
      unfold St.entry at h
      cases ho : s.forms[id]? with
      | none => rfl
      | some o => rw [ho] at h; exact h
    rw [g2]
    dsimp only
    have g3 : ctxGet? Frame.form s = (.ok (lookup Frame.form s.stack), s) := rfl
    rw [M.bind_ok g3]
    cases hl : lookup Frame.form s.stack with
    | none => exact absurd hl hform
    | some j =>
      dsimp only
      have g4 : ctxGet? Frame.parent s = (.ok (lookup Frame.parent s.stack), s) := rfl
      have hpar' : lookup Frame.parent s.stack ≠ some (.form id) := hpar
      rw [M.bind_ok g4, if_neg hpar']
      have g5 : withRewind I (isFormFrame id) (rec f .NONE) s = (x, s3) := by
        unfold withRewind
        rw [M.bind_ok h1]
        exact M.tryFinally_ok hE h8
      unfold M.tryCatch
      rw [g5]
      cases x with
      | ok v => rfl
      | error e =>
        cases e with
        | rewindDidNotStop => exact absurd rfl hstop
        | _ => rfl

end Read

open Getattr Read

/-- C79.  In any context in which `form` is being mapped but some field of it, or something below, is at work (this is
where hooks run), reading a field for which the form has no value is mapping the field where the form stands, whatever
is open above it: the result is the same, be it a value, one of the constants or an exception, and so are the errors
reported.  Nothing is stored by the read itself, and the context is afterwards what it was. -/
theorem C79_read {s : St P} {id : Nat} {name : String} {f : Field} (hd : Declares C s id name f) (hi : Inv W s)
    (h : s.entry id name = none) (hform : s.env.form ≠ none) (hpar : s.env.parent ≠ some (.form id))
    (hin : ¬ Idle s id) (n : Nat) : ∃ s1, AtForm I id s s1 ∧ (let E := mapField I L C n f .NONE s1
      E.1 ≠ .error .rewindDidNotStop →
        (Form.getattr I L C n id name s).1 = E.1 ∧
        (Form.getattr I L C n id name s).2.errs = E.2.errs ∧
        (Form.getattr I L C n id name s).2.forms = E.2.forms ∧
        Undisturbed I s (Form.getattr I L C n id name s).2) := by
  obtain ⟨s1, frames, h1, hi1, hrw, h2⟩ := get_rewound (W := W) hd.name.2 hi h hform hpar hin (mapField I L C n) (Keeps.mapField n f .NONE)
  refine ⟨s1, h1, fun hstop => ?_⟩
  obtain ⟨s', h3, -, h4, h5, h6⟩ := h2 hstop
  rw [hd.run, h3]
  exact ⟨rfl, h4, h5, h6.undisturbed W hi.wf⟩

end Pilo
