import Verif.Clean
import Verif.Once
import Verif.Run

/-!
# C06, C07: a field that fails reports it
-/

namespace Pilo
variable {P : Type} {I : PathOps P} {L : Lib} {C : Classes} {W : LawfulPath I}

theorem Tame.free {f : Field} (h : f.All Tame) : f.All HookFree := h.imp fun _ h => h.1

theorem Tame.classes (h : C.All Tame) : C.All HookFree := h.imp fun _ h => h.1

/-- C06. In a context that collects errors and does not ignore missing values, inside a source of clean data:
whenever mapping a hook-free field gives no usable value (`ERROR`, `NOT_SET` or `NONE`), at least one error
was added to the current list, after the errors already there. -/
theorem C06_no_silent_failure (S : Sane I) (hN : Named C) (hL : SoberLib L) (hC : C.All Tame) (n : Nat)
    {f : Field} (hf : f.All Tame) {s s' : St P} (hl : Live s) (hsrc : s.env.src = some true)
    (him : s.env.ignoreMissing = some false) {b : ErrBuf} (hb : curErrs s = some b)
    (hcol : b.raising = false) (hq : ∀ r p, curPathObj s = some (some (r, p)) → S.Q p) {v : Val}
    (h : mapField I L C n f .NONE s = (.ok v, s')) (hv : v.isIgnore = true) :
    ∃ es, es ≠ [] ∧ curErrs s' = some { b with items := b.items ++ es } := by
  have hr := (Ref.mapField (I := I) (L := L) ((Tame.classes hC).imp fun _ => HookFree.lexNode) n f .NONE
    ((Tame.free hf).imp fun _ => HookFree.lexNode)).run hl
  obtain ⟨es, h1, -, h3⟩ := Says.mapField (S := S) hN hL hC n f .NONE hf rfl s.env s.view b
    ⟨hsrc, him, hb, hq⟩
  rw [h] at hr
  exact ⟨es, h3 hcol v hr.1.symm hv, by rw [← h1]; exact hr.2.1⟩

/-- C06 for every built-in source. -/
theorem C06_builtin (hL : SoberLib L) (hL' : CleanLib L) (hN : Named C) (hC : C.All Tame) (n : Nat)
    {f : Field} (hf : f.All Tame) {s s' : St Path} (hl : Live s) (hsrc : s.env.src = some true)
    (him : s.env.ignoreMissing = some false) {b : ErrBuf} (hb : curErrs s = some b)
    (hcol : b.raising = false) (hq : ∀ r p, curPathObj s = some (some (r, p)) → p.Clean) {v : Val}
    (h : mapField (Path.ops L) L C n f .NONE s = (.ok v, s')) (hv : v.isIgnore = true) :
    ∃ es, es ≠ [] ∧ curErrs s' = some { b with items := b.items ++ es } :=
  C06_no_silent_failure (Path.sane hL') hN hL hC n hf hl hsrc him hb hcol hq h hv

/-- C07. A hook-free field that parses a single value, mapped in a context that collects errors and does not
ignore missing values: if it returns, it has added exactly one error when the result is no usable value
(`ERROR`, `NOT_SET` or `NONE`), and none when it is. -/
theorem C07_one_error (S : Sane I) (W : LawfulPath I) (hL : SoberLib L) {C : Classes} {rec : Rec P}
    {f : Field} (hf : Tame f) (hk : f.kind.leaf = true) {s s' : St P} (hi : Inv W s) (hl : Live s)
    (him : s.env.ignoreMissing = some false) {b : ErrBuf} (hb : curErrs s = some b)
    (hcol : b.raising = false) (hq : ∀ r p, curPathObj s = some (some (r, p)) → S.Q p) {v : Val}
    (h : mapFieldF I L C rec f .NONE s = (.ok v, s')) :
    ∃ es, curErrs s' = some { b with items := b.items ++ es } ∧ es.length = if v.isIgnore then 1 else 0 := by
  have hr := (leaf_ref (I := I) (L := L) (C := C) (rec := rec) hf.1 hk .NONE).run hl
  rw [h] at hr
  obtain ⟨es, h1, h2⟩ := Once.leaf (S := S) W hL (C := noClasses) (rec := Lex.mapField I L noClasses 0)
    (noClasses_all _) (TKeeps.mapField (noClasses_all _) 0) hf hk (v := .NONE) rfl s.env s.view b
    (fun r p hp => curPathObj_wf hi hp) ⟨him, hb, hcol, hq⟩
  exact ⟨es, by rw [← h1]; exact hr.2.1, h2 v hr.1.symm⟩

end Pilo
