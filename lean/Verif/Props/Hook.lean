import Verif.Hook

/-!
# Registering hooks (C52)
-/

namespace Pilo.Hooks

/-- The function a step offers to the hook `n`, if it is one with the right signature. -/
def offered (n spec : String) : Act → Option Func
  | .call m _ (.func g :: _) => if m = n ∧ g.spec = spec then some g else none
  | _ => none

/-- The target a step gives to the hook `n`. -/
def aimed (n : String) : Act → Option Target
  | .attach m t => if m = n then some t else none
  | _ => none

/-- One step, seen from the hook `n`. -/
theorem act_hook (f : Field) (n : String) (h : Hook) (hn : f n = some h) (a : Act) :
    ∃ h', (f.act a).2 n = some h' ∧ h'.spec = h.spec ∧
      h'.func = (match h.func with | some g => some g | none => offered n h.spec a) ∧
      h'.target = (match aimed n a with | some t => some t | none => h.target) := by
  cases a with
  | attach m t =>
    by_cases hm : m = n
    · subst hm
      refine ⟨h.attach t, by simp [Field.act, hn], rfl, ?_, by simp [aimed, Hook.attach]⟩
      unfold Hook.attach
      cases h.func <;> rfl
    · refine ⟨h, ?_, rfl, ?_, by simp [aimed, hm]⟩
      · cases hq : f m with
        | none => simp [Field.act, hq, hn]
        | some h0 => simp [Field.act, hq, Ne.symm hm, hn]
      · cases h.func <;> rfl
  | call m form args =>
    by_cases hm : m = n
    · subst hm
      refine ⟨(h.call form args).2, by simp [Field.act, hn], ?_, ?_, ?_⟩
      · unfold Hook.call
        split
        · split <;> rfl
        · rfl
        · rfl
      · unfold Hook.call
        split
        · rename_i g _ hf
          rw [hf]
          split
          · rename_i e; simp [offered, e]
          · rename_i e; simp [offered, e, hf]
        · rename_i x hf hx
          rw [hf]
          rename_i args _
          rcases args with _ | ⟨a, as⟩
          · rfl
          · cases a with
            | val v => rfl
            | func g => exact (hx g as rfl).elim
        · rename_i g hf
          rw [hf]
      · unfold Hook.call
        split
        · split <;> rfl
        · rfl
        · rfl
    · refine ⟨h, ?_, rfl, ?_, rfl⟩
      · cases hq : f m with
        | none => simp [Field.act, hq, hn]
        | some h0 => simp [Field.act, hq, Ne.symm hm, hn]
      · cases h.func with
        | some g => rfl
        | none =>
          rcases args with _ | ⟨a, as⟩
          · rfl
          · cases a with
            | val v => rfl
            | func g => simp [offered, hm]

theorem run_hook (n : String) : ∀ (as : List Act) (f : Field) (h : Hook), f n = some h →
    ∃ h', f.run as n = some h' ∧ h'.spec = h.spec ∧
      h'.func = (match h.func with
        | some g => some g
        | none => (as.filterMap (offered n h.spec)).head?) ∧
      h'.target = (match (as.filterMap (aimed n)).getLast? with
        | some t => some t
        | none => h.target)
  | [], f, h, hn => ⟨h, hn, rfl, by cases h.func <;> rfl, rfl⟩
  | a :: as, f, h, hn => by
    obtain ⟨h1, q1, q2, q3, q4⟩ := act_hook f n h hn a
    obtain ⟨h2, r1, r2, r3, r4⟩ := run_hook n as (f.act a).2 h1 q1
    refine ⟨h2, r1, r2.trans q2, ?_, ?_⟩
    · rw [r3, q3, q2]
      cases h.func with
      | some g => rfl
      | none =>
        dsimp only
        rw [List.filterMap_cons]
        cases offered n h.spec a <;> rfl
    · rw [r4, q4, List.filterMap_cons]
      cases aimed n a with
      | none => rfl
      | some t =>
        rw [List.getLast?_cons]
        cases hl : (as.filterMap (aimed n)).getLast? <;> simp

/-- **C52.** After any history of calls and `attach`es of a field's hooks, a hook that started unset
holds exactly the first function offered to it with a matching signature, and nothing if none was. -/
theorem C52_first (f : Field) (n : String) (h : Hook) (hn : f n = some h) (hu : h.func = none)
    (as : List Act) : ∃ h', f.run as n = some h' ∧
      h'.func = (as.filterMap (offered n h.spec)).head? := by
  obtain ⟨h', h1, _, h2, _⟩ := run_hook n as f h hn
  rw [hu] at h2
  exact ⟨h', h1, h2⟩

/-- **C52.** Offering an unset hook a function of another signature raises `TypeError` and leaves
every hook of the field as it was. -/
theorem C52_mismatch (f : Field) (n : String) (h : Hook) (hn : f n = some h) (hu : h.func = none)
    (form : Target) (g : Func) (hg : g.spec ≠ h.spec) (args : List Arg) :
    f.act (.call n form (.func g :: args)) = (some .mismatch, f) := by
  have e : h.call form (.func g :: args) = (.mismatch, h) := by
    unfold Hook.call
    rw [hu]
    dsimp only
    rw [if_neg hg]
  unfold Field.act
  dsimp only
  rw [hn]
  dsimp only
  rw [e]
  congr 1
  funext m
  by_cases hm : m = n
  · rw [if_pos hm, hm, hn]
  · rw [if_neg hm]

/-- **C52.** Offering it one of the right signature stores it, in that hook only. -/
theorem C52_match (f : Field) (n : String) (h : Hook) (hn : f n = some h) (hu : h.func = none)
    (form : Target) (g : Func) (hg : g.spec = h.spec) (args : List Arg) :
    (f.act (.call n form (.func g :: args))).1 = some .registered ∧
    ∀ m, (f.act (.call n form (.func g :: args))).2 m =
      if m = n then some { h with func := some g } else f m := by
  have e : h.call form (.func g :: args) = (.registered, { h with func := some g }) := by
    unfold Hook.call
    rw [hu]
    dsimp only
    rw [if_pos hg]
  unfold Field.act
  dsimp only
  rw [hn]
  dsimp only
  rw [e]
  exact ⟨rfl, fun m => rfl⟩

/-- **C52.** Once a function was accepted, whatever happened since, calling the hook with any
arguments invokes that function on the target last attached (the current form if none was) with
those arguments, and changes nothing. -/
theorem C52_invokes (f : Field) (n : String) (h : Hook) (hn : f n = some h) (hu : h.func = none)
    (as : List Act) (g : Func) (hg : (as.filterMap (offered n h.spec)).head? = some g)
    (form : Target) (args : List Arg) :
    (f.run as).act (.call n form args) =
      (some (.invoked g (((as.filterMap (aimed n)).getLast?.or h.target).getD form) args),
        f.run as) := by
  obtain ⟨h', h1, _, h2, h3⟩ := run_hook n as f h hn
  rw [hu] at h2
  dsimp only at h2
  rw [hg] at h2
  have ht : h'.target = (as.filterMap (aimed n)).getLast?.or h.target := by
    rw [h3]
    cases (as.filterMap (aimed n)).getLast? <;> rfl
  unfold Field.act
  dsimp only
  rw [h1]
  dsimp only
  have e : h'.call form args = (.invoked g (h'.target.getD form) args, h') := by
    unfold Hook.call
    rw [h2]
  rw [e, ht]
  congr 1
  funext m
  by_cases hm : m = n
  · rw [if_pos hm, hm, h1]
  · rw [if_neg hm]

/-- A registration on a hook of a field that is not attached returns that field, so that the name the
decorated function is bound to is the field. -/
theorem C52_returns (w : Meta.World) (k f : Nat) (h : (w.obj f).parent = none) :
    outermost w (k + 1) (.field f) = .field f := by
  unfold outermost
  rw [h]

namespace Ex

/-- A field with a `munge` and a `filter` hook. -/
def field : Field := fun n =>
  if n = "munge" then some { spec := "self, value" }
  else if n = "filter" then some { spec := "self, value" }
  else none

/-- A wrong function, a right one, another right one. -/
def history : List Act :=
  [.call "munge" 0 [.func ⟨0, "self"⟩], .call "munge" 0 [.func ⟨1, "self, value"⟩],
   .call "munge" 0 [.func ⟨2, "self, value"⟩]]

example : (history.filterMap (offered "munge" "self, value")).head? = some ⟨1, "self, value"⟩ := by
  decide +kernel

/-- The second registration does not replace the first function: it calls it. -/
example : ((field.run (history.take 2)).act (.call "munge" 7 [.func ⟨2, "self, value"⟩])).1 =
    some (.invoked ⟨1, "self, value"⟩ 7 [.func ⟨2, "self, value"⟩]) := by decide +kernel

example : (field.act (.call "munge" 0 [.func ⟨0, "self"⟩])).1 = some .mismatch := by decide +kernel

end Ex

end Pilo.Hooks
