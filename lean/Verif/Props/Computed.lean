import Verif.WiredMap
import Verif.Source.Pin

/-!
# Fields computed from other fields of the form (C80)
-/

namespace Pilo
variable {P : Type} {I : PathOps P} {L : Lib} {W : LawfulPath I} {Z : Pin I}

/-- What reading field `name` of form `id`, of class `cls`, gives at the start of the mapping of its fields: the entry
of the form or, if it has none, what mapping the field gives (`pilo/fields.py:622-653`). -/
def Form.seen (I : PathOps P) (L : Lib) (C : Classes) (n id cls : Nat) (s1 : St P) (name : String) : Except Exc Val :=
  match s1.entry id name with
  | some v => .ok v
  | none => match (C cls).field? name with
    | some c => (mapField I L C n c .NONE s1).1
    | none => .error (.attributeError name)

/-- No field of the class that is computed from others by at most `n` steps gives `RewindDidNotStop` when it is the first to be
mapped: a hook reading it would then be given what mapping it without a source gives (`pilo/fields.py:642-644`). -/
def Form.Stops (I : PathOps P) (L : Lib) (C : Classes) (n id cls : Nat) (s1 : St P) : Prop :=
  ∀ name c, (C cls).field? name = some c → Wired (C cls).field? id n c →
    (mapField I L C n c .NONE s1).1 ≠ .error .rewindDidNotStop

theorem Field.on_id (f : Field) : f.on (fun q => q) = f := by
  obtain ⟨c, k⟩ := f
  have h1 : (Hook.on fun q => q) = fun h => h := rfl
  have h2 : (Hook.on1 fun q => q) = fun h => h := rfl
  have h3 : c.default.on (fun q => q) = c.default := by cases c.default <;> rfl
  unfold Field.on
  rw [h1, h2]
  dsimp only
  rw [h3]
  simp

namespace Wired
variable {id cls N : Nat} {s1 : St P} {p0 : P} {C0 : Classes}

/-- What the fields of the form are, at the start. -/
abbrev At0 (I : PathOps P) (L : Lib) (W : LawfulPath I) (C0 : Classes) (N id cls : Nat) (s1 : St P) (p0 : P) : St P → Prop :=
  Perch W s1 id cls (Foretold (C0 cls).field? (Form.seen I L C0 N id cls s1) fun c => (mapField I L C0 N c .NONE s1).1) [] p0

abbrev Rig0 (L : Lib) (Z : Pin I) (W : LawfulPath I) (C0 : Classes) (N id cls : Nat) (s1 : St P) (p0 : P) : Prop :=
  Rig Z W (C0 cls).field? id s1 p0 N fun c => (mapField I L C0 N c .NONE s1).1

variable (hR : Rig0 L Z W C0 N id cls s1 p0) (hself : At0 I L W C0 N id cls s1 p0 s1)
include hR hself

theorem gives : ∀ k, k ≤ N → ∀ C : Classes, (C cls).field? = (C0 cls).field? → ∀ n, k ≤ n →
    Gives I L W (C0 cls).field? (Form.seen I L C0 N id cls s1) (fun c => (mapField I L C0 N c .NONE s1).1) id cls s1 p0 k C n := by
  intro k
  induction k with
  | zero => intro _ _ _ _ _ c hc; exact hc.elim
  | succ k ih =>
    intro hk C hC n hn c hw s hs
    obtain ⟨n, rfl⟩ : ∃ m, n = m + 1 := ⟨n - 1, by omega⟩
    obtain ⟨N', hN'⟩ : ∃ m, N = m + 1 := ⟨N - 1, by omega⟩
    have hcr : Crew I L W (C0 cls).field? (Form.seen I L C0 N id cls s1) (fun c => (mapField I L C0 N c .NONE s1).1) id cls s1 p0 k
        (fun b : Bool => if b then C else C0) (fun b => if b then n else N') (fun _ q => q) := by
      refine ⟨?_, ?_, ?_, fun _ q h => h, fun _ _ _ _ => rfl⟩
      · intro b; cases b <;> simp [hC]
      · intro b
        cases b
        · exact ih (by omega) C0 rfl N' (by omega)
        · exact ih (by omega) C hC n (by omega)
      · intro b; cases b <;> simp <;> omega
    obtain ⟨r, hr⟩ := field hR (show k ≤ N by omega) hcr hw
    have h0 := hr false s1 hself
    have h1 := hr true s hs
    simp only [Field.on_id, if_true, Bool.false_eq_true, if_false, ← hN'] at h0 h1
    refine ⟨h1.1.trans h0.1.symm, fun v hv => h1.2 v ?_⟩
    rw [← h0.1]; exact hv

/-- The field with what its hooks read replaced by what the fields are. -/
theorem settled {c : Field} (hw : Wired (C0 cls).field? id N c) :
    (mapField I L C0 N (c.settle (Form.seen I L C0 N id cls s1) id) .NONE s1).1 = (mapField I L C0 N c .NONE s1).1 := by
  cases N with
  | zero => exact hw.elim
  | succ N =>
    have hcr : Crew I L W (C0 cls).field? (Form.seen I L C0 (N + 1) id cls s1) (fun c => (mapField I L C0 (N + 1) c .NONE s1).1) id cls s1 p0 N
        (fun _ : Bool => C0) (fun _ => N) (fun b q => if b then q.settle (Form.seen I L C0 (N + 1) id cls s1) id else q) := by
      refine ⟨fun _ => rfl, fun _ => gives hR hself N (by omega) C0 rfl N (by omega), fun _ => Nat.le_refl _, ?_, ?_⟩
      · intro b q hq
        cases b
        · exact hq
        · exact hq.settle
      · intro b q o hq
        cases b
        · rfl
        · exact hq.settle_given
    obtain ⟨r, hr⟩ := field hR (show N ≤ N + 1 by omega) hcr hw
    have h0 := (hr false s1 hself).1
    have h1 := (hr true s1 hself).1
    simp only [if_true, Bool.false_eq_true, if_false, Field.on_id] at h0 h1
    rw [h0]
    exact h1

/-- All of the fields of a mapping, one after the other. -/
theorem rounds {C : Classes} (hC : (C cls).field? = (C0 cls).field?) {n : Nat} (hn : N ≤ n) {as : List (Attempt P)} {s s' : St P}
    (h : Rounds (mapField I L C n) id as s s') : At0 I L W C0 N id cls s1 p0 s →
    (∀ a ∈ as, Wired (C0 cls).field? id N a.field ∧ ∃ name, a.field.name = some name ∧
      (C0 cls).field? name = some a.field ∧ s1.entry id name = none) →
    ∀ a ∈ as, (mapField I L C0 N a.field .NONE s1).1 = .ok a.value := by
  induction h with
  | nil s => intro _ _ a ha; cases ha
  | cons hs h t ih =>
    intro hat hall
    rename_i a as s s'
    obtain ⟨hw, name, hname, hD, hnone⟩ := hall a (by simp)
    obtain ⟨h1, h2⟩ := gives hR hself N (Nat.le_refl _) C hC n hn a.field hw s hat
    rw [h] at h1 h2
    have h3 := h2 a.value h1.symm
    have hlt : id < a.after.forms.length := by
      have := h3.ofClass
      cases ho : a.after.forms[id]? with
      | none => rw [ho] at this; cases this
      | some o => exact (List.getElem?_eq_some_iff.1 ho).1
    have hx : Ext W a.after (stored id a.field a.value a.after) := Ext.stored h3.inv
    have hat' : At0 I L W C0 N id cls s1 p0 (stored id a.field a.value a.after) := by
      refine ⟨hx.inv h3.inv, h3.live.ext hx, hx.stack.trans h3.stack, ?_, ?_, ?_, ?_⟩
      · obtain ⟨r, g1, g2⟩ := h3.path
        refine ⟨r, g1, ?_⟩
        rw [← g2]
        unfold stored
        split <;> rfl
      · obtain ⟨b, b1, g1, g⟩ := h3.errs
        refine ⟨b, b1, ?_, g⟩
        rw [← g1]
        unfold stored
        split <;> rfl
      · intro m
        rw [stored_entry (by rw [hname]; rfl) hlt]
        split
        · rename_i hm
          rw [hname] at hm
          cases hm.1
          intro c hc
          rw [hD] at hc
          cases hc
          show Form.seen I L C0 N id cls s1 name = .ok a.value
          unfold Form.seen
          rw [hnone, hD]
          exact h1.symm
        · exact h3.same m
      · have := h3.ofClass
        cases ho : a.after.forms[id]? with
        | none => rw [ho] at this; cases this
        | some o =>
          obtain ⟨o', k1, k2⟩ := hx.forms id o ho
          rw [k1]
          rw [ho] at this
          simpa [k2] using this
    intro x hxm
    rcases List.mem_cons.1 hxm with rfl | hxm
    · exact h1.symm
    · exact ih hat' (fun y hy => hall y (by simp [hy])) x hxm

end Wired

/-- A class whose selected fields are computed from one another by at most `n` steps, and a form of it about to be mapped that has
no values for them, or will be reset. -/
structure Form.Wires (C : Classes) (T : List String) (n id cls : Nat) (reset : Bool) (s : St P) : Prop where
  names : ((C cls).fields.map Field.name).Nodup
  named : ∀ f ∈ (C cls).fields, f.name.isSome
  wired : ∀ f ∈ (C cls).fields, selected T f = true → Wired (C cls).field? id n f
  fresh : reset = true ∨ ∀ f ∈ (C cls).fields, selected T f = true → ∀ name, f.name = some name → s.entry id name = none

theorem find_unique : ∀ {fs : List Field}, (fs.map Field.name).Nodup → ∀ {f : Field}, f ∈ fs → ∀ {name : String}, f.name = some name →
    (fs.find? fun g => g.name == some name) = some f := by
  intro fs
  induction fs with
  | nil => intro _ f hf; cases hf
  | cons g fs ih =>
    intro hd f hf name hn
    rw [List.map_cons, List.nodup_cons] at hd
    rcases List.mem_cons.1 hf with rfl | hf
    · rw [List.find?_cons_of_pos (by simp [hn])]
    · rw [List.find?_cons_of_neg]
      · exact ih hd.2 hf hn
      · intro h
        refine hd.1 ?_
        have : g.name = some name := by simpa using h
        rw [this, ← hn]
        exact List.mem_map_of_mem hf

namespace Wired
variable {C : Classes} {id cls n : Nat} {src : SrcArg P} {T : List String} {reset raising : Bool} {u : Unmapped} {s s' : St P} {e : Nat}
  {fr : Frame} {as : List (Attempt P)} {s1 s2 s3 : St P} {rec : Rec P}

/-- The fields attempted, and what the form has for them at the start. -/
theorem attempts (c : Course I C rec id cls src T reset u raising s e fr as s1 s2 s3 s')
    (hw : Form.Wires C T n id cls reset s) : ∀ a ∈ as, Wired (C cls).field? id n a.field ∧ ∃ name, a.field.name = some name ∧
      (C cls).field? name = some a.field ∧ s1.entry id name = none := by
  intro a ha
  have hm : a.field ∈ (C cls).fields.filter (selected T) := by rw [← c.fields]; exact List.mem_map_of_mem ha
  obtain ⟨hf, hsel⟩ := List.mem_filter.1 hm
  obtain ⟨name, hname⟩ := Option.isSome_iff_exists.1 (hw.named _ hf)
  refine ⟨hw.wired _ hf hsel, name, hname, find_unique hw.names hf hname, ?_⟩
  have hid : id < s.forms.length := by
    have := c.ofClass
    cases ho : s.forms[id]? with
    | none => rw [ho] at this; cases this
    | some o => exact (List.getElem?_eq_some_iff.1 ho).1
  rw [resetForms_entry hw.named c.forms1 hid]
  have hs : isSelected T (C cls).fields name = true := by
    unfold isSelected
    rw [List.any_eq_true]
    exact ⟨a.field, hf, by simp [hsel, hname]⟩
  rcases hw.fresh with h | h
  · rw [h, hs]; rfl
  · rw [h _ hf hsel name hname]; simp

/-- The state in which the fields are mapped. -/
theorem atStart (c : Course I C rec id cls src T reset u raising s e fr as s1 s2 s3 s') (hi1 : Inv W s1) (hl : Live s) {r : Nat} {p0 : P}
    (hp : curPathObj s1 = some (some (r, p0))) : At0 I L W C n id cls s1 p0 s1 := by
  obtain ⟨hl1, hid, herr, -⟩ := c.good hl
  refine ⟨hi1, hl1, rfl, ?_, ⟨_, _, herr, herr, rfl, fun _ => rfl⟩, ?_, ?_⟩
  · unfold curPathObj at hp
    split at hp
    · cases hp
    · cases hp
    · rename_i r' hr'
      refine ⟨r', hr', ?_⟩
      cases hq : s1.paths[r']? with
      | none => rw [hq] at hp; cases hp
      | some q => rw [hq] at hp; cases hp; rfl
  · intro name k hk
    unfold Form.seen
    cases s1.entry id name with
    | some v => rfl
    | none => rw [hk]
  · rw [← c.ofClass, c.forms1]
    unfold resetForms
    split
    · rw [List.getElem?_modify]
      cases s.forms[id]? <;> simp
    · rfl

end Wired

/-- A path into a document that is not combined from others, whose value is at hand once its keys were looked at. -/
def Path.Still (L : Lib) (p : Path) : Prop := ∃ q : SPath, ((Path.ops L).mapping p).2 = .base (.simple q) ∧ q.AtHand

/-- The mapping starts at such a path. -/
def SrcArg.Still (L : Lib) (s : St Path) : SrcArg Path → Prop
  | .source (.ok p) => p.Still L
  | .none => ∀ r p, curPathObj s = some (some (r, p)) → p.Still L
  | .data .none => ∀ r p, curPathObj s = some (some (r, p)) → p.Still L
  | _ => True

theorem Path.still_simple {L : Lib} {q : SPath} (h : q.AtHand) : Path.Still L (.base (.simple q)) := by
  obtain ⟨q', h1, h2⟩ := (Path.pin L h).mapping (d := 0) ⟨q, rfl, SPath.Past.refl⟩
  cases SPath.Past.zero h2
  exact ⟨_, h1, h⟩

theorem SPath.native_atHand (v : Val) (al : Option (List (Val × Val))) : (SPath.native v al).AtHand := .inl rfl

namespace Wired
variable {C : Classes} {id cls n : Nat} {src : SrcArg Path} {T : List String} {reset raising : Bool} {u : Unmapped} {s s' : St Path} {e : Nat}
  {fr : Frame} {as : List (Attempt Path)} {s1 s2 s3 : St Path} {rec : Rec Path}

theorem still (c : Course (Path.ops L) C rec id cls src T reset u raising s e fr as s1 s2 s3 s') (h : src.Still L s) :
    ∃ r q, q.AtHand ∧ curPathObj s1 = some (some (r, Path.base (.simple q))) := by
  obtain ⟨r, p, h1, -, h2⟩ := c.start
  have hp : p.Still L := by
    rcases h2 with ⟨g1, -, -, g2, -⟩ | ⟨-, -, -, -, g⟩
    · unfold SrcArg.isNone at g1
      split at g1
      · exact h r p g2
      · rename_i v
        cases v with
        | none => exact h r p g2
        | _ => cases g1
      · cases g1
    · cases g with
      | source p => exact h
      | _ => exact Path.still_simple (SPath.native_atHand _ _)
  obtain ⟨q, h3, h4⟩ := hp
  exact ⟨r, q, h4, h3 ▸ h1⟩

theorem rig (c : Course (Path.ops L) C rec id cls src T reset u raising s e fr as s1 s2 s3 s') (hi1 : Inv (Path.lawful L) s1) {r : Nat} {q : SPath}
    (h1 : q.AtHand) (h2 : curPathObj s1 = some (some (r, Path.base (.simple q)))) (hs : Form.Stops (Path.ops L) L C n id cls s1) :
    Rig0 L (Path.pin L h1) (Path.lawful L) C n id cls s1 (.base (.simple q)) := by
  refine ⟨⟨_, c.stack1⟩, ?_, ⟨q, rfl, SPath.Past.refl⟩, curPathObj_wf hi1 h2, hs⟩
  rintro p ⟨q', rfl, h⟩
  cases SPath.Past.zero h
  rfl

end Wired

section
variable {C : Classes} (n : Nat) {id cls : Nat} {src : SrcArg Path} {tags : List String} {reset raising : Bool} {u : Unmapped}
  {s s' : St Path} {e : Nat}

/-- C80. When `form.map` returns, every field that was mapped has the value that reading it would have given at the start, before
any field was mapped; and this is the value its own definition gives there, once every read of another field by its hooks is
replaced by the value of that field. -/
theorem C80_computed (hsrc : SrcOK (Path.lawful L) src) (hst : src.Still L s) (hi : Inv (Path.lawful L) s) (hl : Live s)
    (hcls : (s.forms[id]?).map FormObj.cls = some cls) (hw : Form.Wires C (s.tagsFor tags) n id cls reset s)
    (h : Form.map (Path.ops L) L C n id src tags reset u raising s = (.ok e, s')) :
    ∃ fr as s1 s2 s3,
      Course (Path.ops L) C (mapField (Path.ops L) L C n) id cls src (s.tagsFor tags) reset u raising s e fr as s1 s2 s3 s' ∧
      (Form.Stops (Path.ops L) L C n id cls s1 → ∀ a ∈ as, ∃ name, a.field.name = some name ∧
        Form.seen (Path.ops L) L C n id cls s1 name = .ok a.value ∧
        (mapField (Path.ops L) L C n (a.field.settle (Form.seen (Path.ops L) L C n id cls s1) id) .NONE s1).1 = .ok a.value) := by
  obtain ⟨cls', fr, as, s1, s2, s3, hi1, c⟩ := formMap_course (Keeps.mapField n) hsrc hi hl h
  have : cls' = cls := by rw [c.ofClass] at hcls; cases hcls; rfl
  subst this
  refine ⟨fr, as, s1, s2, s3, c, fun hs a ha => ?_⟩
  obtain ⟨r, q, h1, h2⟩ := Wired.still c hst
  have hR := Wired.rig c hi1 h1 h2 hs
  have h0 := Wired.atStart (L := L) (n := n) c hi1 hl h2
  have hat := Wired.attempts c hw
  have hall := Wired.rounds hR h0 rfl (Nat.le_refl _) c.rounds h0 hat a ha
  obtain ⟨hwa, name, hname, hD, hnone⟩ := hat a ha
  refine ⟨name, hname, ?_, ?_⟩
  · unfold Form.seen
    rw [hnone, hD]
    exact hall
  · rw [Wired.settled hR h0 hwa]
    exact hall

theorem field?_perm {c c' : ClassDef} (hd : (c.fields.map Field.name).Nodup) (h : c'.fields.Perm c.fields) : c'.field? = c.field? := by
  have hd' : (c'.fields.map Field.name).Nodup := (h.map Field.name).nodup_iff.2 hd
  funext name
  show (c'.fields.find? fun g => g.name == some name) = c.fields.find? fun g => g.name == some name
  cases h1 : c.fields.find? fun g => g.name == some name with
  | some f =>
    exact find_unique hd' (h.mem_iff.2 (List.mem_of_find?_eq_some h1)) (by simpa using List.find?_some h1)
  | none =>
    rw [List.find?_eq_none] at h1 ⊢
    exact fun x hx => h1 x (h.mem_iff.1 hx)

/-- C80. The values do not depend on the order in which the class declares its fields, nor on other classes, nor on how deep
recursion may go.  A list or tuple is excluded as source, since positions refer to that order. -/
theorem C80_order {C' : Classes} {n' : Nat} (hn : n ≤ n') {e' : Nat} {s'' : St Path} (hsrc : SrcOK (Path.lawful L) src) (hst : src.Still L s)
    (hseq : ∀ xs, src ≠ .data (.list xs) ∧ src ≠ .data (.tuple xs)) (hi : Inv (Path.lawful L) s) (hl : Live s)
    (hcls : (s.forms[id]?).map FormObj.cls = some cls) (hw : Form.Wires C (s.tagsFor tags) n id cls reset s)
    (hperm : (C' cls).fields.Perm (C cls).fields)
    (h : Form.map (Path.ops L) L C n id src tags reset u raising s = (.ok e, s'))
    (h' : Form.map (Path.ops L) L C' n' id src tags reset u raising s = (.ok e', s'')) :
    ∃ fr as s1 s2 s3 fr' as' s1' s2' s3',
      Course (Path.ops L) C (mapField (Path.ops L) L C n) id cls src (s.tagsFor tags) reset u raising s e fr as s1 s2 s3 s' ∧
      Course (Path.ops L) C' (mapField (Path.ops L) L C' n') id cls src (s.tagsFor tags) reset u raising s e' fr' as' s1' s2' s3' s'' ∧
      (as'.map Attempt.field).Perm (as.map Attempt.field) ∧
      (Form.Stops (Path.ops L) L C n id cls s1 → ∀ a ∈ as, ∀ a' ∈ as', a'.field = a.field → a'.value = a.value) := by
  obtain ⟨cls', fr, as, s1, s2, s3, hi1, c⟩ := formMap_course (Keeps.mapField n) hsrc hi hl h
  have : cls' = cls := by rw [c.ofClass] at hcls; cases hcls; rfl
  subst this
  obtain ⟨cls'', fr', as', s1', s2', s3', hi1', c'⟩ := formMap_course (Keeps.mapField n') hsrc hi hl h'
  have : cls'' = cls' := by rw [c'.ofClass] at hcls; cases hcls; rfl
  subst this
  refine ⟨fr, as, s1, s2, s3, fr', as', s1', s2', s3', c, c', ?_, fun hs a ha a' ha' hf => ?_⟩
  · rw [c.fields, c'.fields]
    exact hperm.filter _
  obtain ⟨r, q, h1, h2⟩ := Wired.still c hst
  have hR := Wired.rig c hi1 h1 h2 hs
  have h0 := Wired.atStart (L := L) (n := n) c hi1 hl h2
  have hat := Wired.attempts c hw
  have hall := Wired.rounds hR h0 rfl (Nat.le_refl _) c.rounds h0 hat a ha
  have hw' : Form.Wires C' (s.tagsFor tags) n id cls'' reset s := by
    refine ⟨(hperm.map Field.name).nodup_iff.2 hw.names, fun f hf => hw.named f (hperm.mem_iff.1 hf), fun f hf hsel => ?_, ?_⟩
    · rw [field?_perm hw.names hperm]
      exact hw.wired f (hperm.mem_iff.1 hf) hsel
    · exact hw.fresh.imp (fun h => h) fun h f hf => h f (hperm.mem_iff.1 hf)
  have hid : id < s.forms.length := by
    have := c.ofClass
    cases ho : s.forms[id]? with
    | none => rw [ho] at this; cases this
    | some o => exact (List.getElem?_eq_some_iff.1 ho).1
  have hent : ∀ name, s1'.entry id name = s1.entry id name := by
    intro name
    rw [resetForms_entry hw'.named c'.forms1 hid, resetForms_entry hw.named c.forms1 hid]
    have : isSelected (s.tagsFor tags) (C' cls'').fields name = isSelected (s.tagsFor tags) (C cls'').fields name := hperm.any_eq
    rw [this]
  have hpath : fr' = fr ∧ curPathObj s1' = curPathObj s1 := by
    obtain ⟨r1, p1, g1, -, g2⟩ := c.start
    obtain ⟨r2, p2, k1, -, k2⟩ := c'.start
    rw [c.errors, c'.errors, c.newList, c'.newList]
    rw [g1, k1]
    rcases g2 with ⟨g2, g3, g4, g5, -⟩ | ⟨g2, g4, g5, -, g7⟩
    · rcases k2 with ⟨k2, k3, k4, k5, -⟩ | ⟨k2, -⟩
      · rw [g4, k4]
        rw [g5] at k5
        cases k5
        exact ⟨rfl, rfl⟩
      · rcases k2 with k2 | k2
        · rw [g2] at k2; cases k2
        · rw [g3] at k2; cases k2
    · rcases k2 with ⟨k2, k3, -⟩ | ⟨k2, k4, k5, -, k7⟩
      · rcases g2 with g2 | g2
        · rw [g2] at k2; cases k2
        · rw [g2] at k3; cases k3
      · rw [g4, k4, g5, k5]
        have : p2 = p1 := by
          cases g7 with
          | none => cases k7; rfl
          | null => cases k7; rfl
          | source => cases k7; rfl
          | dict => cases k7; rfl
          | list xs => exact absurd rfl (hseq xs).1
          | tuple xs => exact absurd rfl (hseq xs).2
        rw [this]
        exact ⟨rfl, rfl⟩
  have h0' : Wired.At0 (Path.ops L) L (Path.lawful L) C n id cls'' s1 (.base (.simple q)) s1' := by
    have hx := Wired.atStart (L := L) (n := n') c' hi1' hl (hpath.2.trans h2)
    have hstack : s1'.stack = s1.stack := by rw [c'.stack1, c.stack1, hpath.1]
    refine ⟨hx.inv, hx.live, hstack, ?_, ?_, ?_, hx.ofClass⟩
    · rw [← hstack]; exact hx.path
    · exact ⟨_, _, (c'.good hl).2.2.1, (c.good hl).2.2.1, rfl, fun _ => rfl⟩
    · intro name
      rw [hent]
      exact h0.same name
  have hat' : ∀ a ∈ as', Wired (C cls'').field? id n a.field ∧ ∃ name, a.field.name = some name ∧
      (C cls'').field? name = some a.field ∧ s1.entry id name = none := by
    intro a ha
    obtain ⟨x1, name, x2, x3, x4⟩ := Wired.attempts c' hw' a ha
    rw [field?_perm hw.names hperm] at x1 x3
    exact ⟨x1, name, x2, x3, by rw [← hent]; exact x4⟩
  have hall' := Wired.rounds hR h0 (field?_perm hw.names hperm) hn c'.rounds h0' hat' a' ha'
  rw [hf, hall] at hall'
  injection hall' with hv
  exact hv.symm

end

end Pilo
