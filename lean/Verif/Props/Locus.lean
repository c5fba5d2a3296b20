import Verif.Locus
import Verif.Props.Modes

/-!
# C49: errors carry the path of what they are about
-/

namespace Pilo
variable {P : Type} {I : PathOps P} {L : Lib} {C : Classes} {Q : Field → Prop} {R : Prop}

/-- The current path has these keys and this shape. -/
def StandsAt (W : LawfulPath I) (sh : W.Shape) (ks : List Val) (s : St P) : Prop :=
  ∃ r p, curPathObj s = some (some (r, p)) ∧ W.WF p ∧ I.keys p = ks ∧ W.shape p = sh

/-- The error names a part of the declaration (according to `E`) and carries the text of that part's keys, the
keys `ks` of the place the declaration is mapped from included. -/
def Located (W : LawfulPath I) (sh : W.Shape) (ks : List Val) (E : List Val → Option String → Prop) (e : Err) :
    Prop := ∃ rel n, E rel n ∧ e.field = n ∧ W.text sh (ks ++ rel) = .ok e.path

theorem Placed.free {f : Field} (h : f.All (Placed R Q)) : f.All (ValueHooks True) := h.imp fun _ h => h.1

/-- The hooks are functions of the value, and the type field of a polymorphic field is a field of a single value (such as `Type`). -/
def Typed (f : Field) : Prop :=
  ValueHooks True f ∧ ∀ tf pc ts r u, f.kind = .poly tf pc ts r u → (tf.kind.leaf = true ∧ tf.Wordless)

theorem Typed.placed {f : Field} (h : Typed f) : Placed True (fun _ => False) f :=
  ⟨h.1, fun _ _ _ _ _ hk => ⟨trivial, .inl (h.2 _ _ _ _ _ hk)⟩⟩

theorem Mono.typed {f : Field} (h : Mono f) : Typed f :=
  ⟨h.1, fun _ _ _ _ _ hk => by have := h.2; rw [hk] at this; exact this.elim⟩

theorem Mono.placed {f : Field} (h : f.All Mono) : f.All (Placed R fun _ => False) :=
  h.imp fun _ h => ⟨h.1, fun _ _ _ _ _ hk => by have := h.2; rw [hk] at this; exact this.elim⟩

theorem Told.cases {W : LawfulPath I} {sh : W.Shape} {ks : List Val} {E : List Val → Option String → Prop}
    {e : Err} (h : Told W C Q (Below ks E) sh e) : Located W sh ks E e ∨ Stray W C Q e := by
  rcases h with ⟨full, n, ⟨rel, hrel, hE⟩, hn, ht⟩ | h
  · exact .inl ⟨rel, n, hE, hn, by rw [← hrel]; exact ht⟩
  · exact .inr h

theorem Stray.none {W : LawfulPath I} {e : Err} (h : Stray W C (fun _ => False) e) : False := by
  obtain ⟨_, _, _, h, _⟩ := h
  exact h

/-- C49 for one field, mapped anywhere: every error it adds is at the field or at a part of it, the keys of the
current path included; or about the type field of a polymorphic field inside it, of the kind `Q` describes; unless
the field is polymorphic somewhere and the mapping ends with an exception.

Missing for the full claim: the last two cases. -/
theorem C49_field_partial (W : LawfulPath I) (hC : C.All (Placed R Q)) (n : Nat) {f : Field}
    (hf : f.All (Placed R Q)) {s : St P} (hl : Live s) {sh : W.Shape} {ks : List Val}
    (hat : StandsAt W sh ks s) {b : ErrBuf} (hb : curErrs s = some b) :
    ∃ es, curErrs (mapField I L C n f .NONE s).2 = some { b with items := b.items ++ es } ∧
      StandsAt W sh ks (mapField I L C n f .NONE s).2 ∧
      ((∀ e ∈ es, Located W sh ks (Lies C f) e ∨ Stray W C Q e) ∨
        R ∧ Doomed b.raising (mapField I L C n f .NONE s).1) := by
  have hr := (Ref.mapField (I := I) (L := L) (hC.imp fun _ h => h.1.lexNode) n f .NONE
    (hf.imp fun _ h => h.1.lexNode)).run hl
  obtain ⟨es, h1, h2, -, h3, -⟩ := ((Loc.mapField (W := W) (L := L) hC n f hf).1 (fun _ _ => False) s.env.field ks).1
    sh s.env s.view b hat rfl hb (fun _ _ h => h.elim)
  refine ⟨es, by rw [hr.2.1, h1], ?_, h3.imp (fun h3 e he => (h3 e he).cases) (by rw [hr.1]; exact fun h => h)⟩
  obtain ⟨r, p, h4, h5⟩ := h2
  exact ⟨r, p, by rw [hr.2.2.2.1]; exact h4, h5⟩

/-- C49 for one field that returns a result. -/
theorem C49_field (W : LawfulPath I) (hC : C.All Typed) (n : Nat) {f : Field} (hf : f.All Typed) {s s' : St P}
    (hl : Live s) {sh : W.Shape} {ks : List Val} (hat : StandsAt W sh ks s) {b : ErrBuf}
    (hb : curErrs s = some b) {v : Val} (h : mapField I L C n f .NONE s = (.ok v, s')) :
    ∃ es, curErrs s' = some { b with items := b.items ++ es } ∧ ∀ e ∈ es, Located W sh ks (Lies C f) e := by
  obtain ⟨es, h1, -, h2⟩ := C49_field_partial W (L := L) (hC.imp fun _ => Typed.placed) n
    (hf.imp fun _ => Typed.placed) hl hat hb
  rw [h] at h1 h2
  rcases h2 with h2 | ⟨_, h2⟩
  · exact ⟨es, h1, fun e he => (h2 e he).elim id fun h => h.none.elim⟩
  · cases h2

/-- C49 for one field without polymorphic parts, whatever its outcome. -/
theorem C49_field_mono (W : LawfulPath I) (hC : C.All Mono) (n : Nat) {f : Field} (hf : f.All Mono) {s : St P}
    (hl : Live s) {sh : W.Shape} {ks : List Val} (hat : StandsAt W sh ks s) {b : ErrBuf}
    (hb : curErrs s = some b) :
    ∃ es, curErrs (mapField I L C n f .NONE s).2 = some { b with items := b.items ++ es } ∧
      ∀ e ∈ es, Located W sh ks (Lies C f) e := by
  obtain ⟨es, h1, -, h2⟩ := C49_field_partial W (L := L) (R := False) (fun c f hf => Mono.placed (hC c f hf)) n
    (Mono.placed hf) hl hat hb
  rcases h2 with h2 | ⟨h2, _⟩
  · exact ⟨es, h1, fun e he => (h2 e he).elim id fun h => h.none.elim⟩
  · exact h2.elim

/-! ## Forms -/

theorem Rounds.located (W : LawfulPath I) (hC : C.All (Placed R Q)) (k : Nat) {id : Nat}
    {as : List (Attempt P)} {s s' : St P} (h : Rounds (mapField I L C k) id as s s') {sh : W.Shape}
    {ks : List Val} {E : List Val → Option String → Prop} : Inv W s → Live s →
    (∀ a ∈ as, a.field.All (Placed R Q)) → (∀ a ∈ as, ∀ rel n, Lies C a.field rel n → E rel n) →
    StandsAt W sh ks s → ∀ b, curErrs s = some b →
    ∃ es, curErrs s' = some { b with items := b.items ++ es } ∧ StandsAt W sh ks s' ∧
      ∀ e ∈ es, Located W sh ks E e ∨ Stray W C Q e := by
  have hr : RecKeeps W (mapField I L C k) := Keeps.mapField k
  induction h with
  | nil s => intro _ _ _ _ hat b hb; exact ⟨[], by simpa using hb, hat, by simp⟩
  | cons hs h t ih =>
    intro hi hl has hE hat b hb
    rename_i a as s s'
    have h1 := (hr a.field .NONE).run _ hi
    obtain ⟨es, hes, hat', hloc⟩ := C49_field_partial W (L := L) hC k (has a (by simp)) hl hat hb
    rw [h] at h1 hes hat' hloc
    have hloc := hloc.elim (fun h => h) fun h => h.2.elim
    have h2 : Ext W _ (stored id a.field a.value a.after) := Ext.stored (h1.inv hi)
    have hobj : curPathObj (stored id a.field a.value a.after) = curPathObj a.after := by
      unfold stored; split <;> rfl
    have herr : curErrs (stored id a.field a.value a.after) = curErrs a.after := by
      unfold stored; split <;> rfl
    obtain ⟨es', h4, h5, h6⟩ := ih (h2.inv (h1.inv hi)) ((hl.ext h1).ext h2)
      (fun x hx => has x (by simp [hx])) (fun x hx => hE x (by simp [hx]))
      (by unfold StandsAt; rw [hobj]; exact hat') _ (by rw [herr, hes])
    refine ⟨es ++ es', by rw [h4]; simp, h5, ?_⟩
    intro e he
    rcases List.mem_append.1 he with he | he
    · rcases hloc e he with ⟨rel, n, hl', h'⟩ | h'
      · exact .inl ⟨rel, n, hE a (by simp) rel n hl', h'⟩
      · exact .inr h'
    · exact h6 e he

/-- Where `form.map(src)` maps from: the start of its source, or the current path when it is given none inside
another mapping. -/
def MapsFrom (I : PathOps P) (C : Classes) (cls : Nat) (src : SrcArg P) (s : St P) (p : P) : Prop :=
  StartsAt I C cls src p ∨ (src.isNone = true ∧ ∃ r, curPathObj s = some (some (r, p)))

/-- C49 with any type fields: every error `form.map` returns is at a field of the form's class, or at something
inside one, or at the `Dict` that takes unmapped keys or something inside it; or it is about the type field of a polymorphic field, of the kind `Q` describes.

Missing for the full claim: the second case, for type fields that are containers or forms. -/
theorem C49_form_partial (W : LawfulPath I) (hC : C.All (Placed R Q)) (k : Nat) {id : Nat} {src : SrcArg P}
    (hsrc : SrcOK W src) {tags : List String} {reset : Bool} {u : Unmapped} (hu : u.All (Placed R Q))
    {raising : Bool} {s s' : St P} {e : Nat} (hi : Inv W s) (hl : Live s)
    (h : Form.map I L C k id src tags reset u raising s = (.ok e, s')) :
    ∃ cls p, (s.forms[id]?).map FormObj.cls = some cls ∧ MapsFrom I C cls src s p ∧
      ∀ err ∈ s'.errors e,
        Located W (W.shape p) (I.keys p) (InForm C cls u) err ∨ Stray W C Q err := by
  have hr : RecKeeps W (mapField I L C k) := Keeps.mapField k
  obtain ⟨cls, fr, as, s1, s2, s3, hi1, c⟩ := formMap_course hr hsrc hi hl h
  obtain ⟨hl1, hid, herr, henv, -, -⟩ := c.good hl
  obtain ⟨r, p, hp1, -, hst⟩ := c.start
  have hmem : ∀ a ∈ as, a.field ∈ (C cls).fields := by
    intro a ha
    have : a.field ∈ as.map Attempt.field := List.mem_map_of_mem ha
    rw [c.fields] at this
    exact (List.mem_filter.1 this).1
  have hwf : W.WF p := by
    rcases hst with ⟨-, -, -, h4, -⟩ | ⟨-, -, -, -, h4⟩
    · refine hi.wf p ?_
      unfold curPathObj at h4
      split at h4
      · cases h4
      · cases h4
      · rename_i r' _
        cases hq : s.paths[r']? with
        | none => rw [hq] at h4; cases h4
        | some q => rw [hq] at h4; cases h4; exact List.mem_of_getElem? hq
    · cases h4 with
      | source q => exact hsrc
      | _ => exact W.native_wf
  have hsame := W.mapping_keys hwf
  refine ⟨cls, p, c.ofClass, ?_, ?_⟩
  · rcases hst with ⟨h1, -, -, h4, -⟩ | ⟨-, -, -, -, h4⟩
    · exact .inr ⟨h1, r, h4⟩
    · exact .inl h4
  have hat1 : StandsAt W (W.shape p) (I.keys p) s1 := ⟨r, _, hp1, hsame.wf, hsame.keys, hsame.shape⟩
  obtain ⟨es, hes, hat2, hloc⟩ := c.rounds.located (L := L) W hC k (E := InForm C cls u) hi1 hl1
    (fun a ha => hC cls _ (hmem a ha)) (fun a ha rel n hl' => .field (hmem a ha) hl') hat1 _ herr
  have hst2 : s2.stack = formFrame id :: fr :: s.stack := by
    rw [(c.rounds.ext hr hi1).stack, c.stack1]
  have hl2 : Live { s2 with stack := fr :: s.stack } := by
    have h2 := hl1.ext (c.rounds.ext hr hi1)
    refine ⟨by simp [hl.root], ?_, ?_, ?_⟩
    · intro r hr'
      refine h2.path r ?_
      rw [hst2, curPath_cons]
      exact hr'
    · intro e' he'
      refine h2.errs e' ?_
      rw [hst2]
      simpa [lookup, formFrame] using he'
    · intro fr' hfr' i hfi
      exact h2.ids fr' (by rw [hst2]; exact List.mem_cons_of_mem _ hfr') i hfi
  have hobj : curPathObj { s2 with stack := fr :: s.stack } = curPathObj s2 := by
    have : curPath (formFrame id :: fr :: s.stack) = curPath (fr :: s.stack) := by rw [curPath_cons]; rfl
    unfold curPathObj; rw [hst2, this]
  have hlook : lookup Frame.errors (fr :: s.stack) = some e := by rw [c.errors]; simp [lookup]
  have herr2 : curErrs { s2 with stack := fr :: s.stack } = curErrs s2 := by
    unfold curErrs; rw [hst2]; simp [lookup, formFrame]
  have href := (Ref.applyUnmapped (trec := Lex.mapField I L C k)
    (Ref.mapField (I := I) (L := L) (hC.imp fun _ h => h.1.lexNode) k) id
    (Unmapped.All.imp (fun _ h => h.1.lexNode) hu)).run hl2
  obtain ⟨es', g1, -, -, g3, -⟩ := Loc.applyUnmapped (W := W) (φ := fun _ _ => False)
    (fld := ({ s2 with stack := fr :: s.stack } : St P).env.field) (ks := I.keys p)
    (Loc.mapField (W := W) (L := L) hC k) id cls hu (W.shape p) _ (St.view { s2 with stack := fr :: s.stack }) _
    (by obtain ⟨r, q, h1, h2⟩ := hat2; exact ⟨r, q, by rw [← h1]; exact hobj, h2⟩) rfl
    (by show curErrs _ = _; rw [herr2, hes]) (fun _ _ h => h.elim)
  have h3 : s3.errors e = es ++ es' := by
    have := href.2.1
    rw [g1, c.unmapped] at this
    have hst3 : s3.stack = fr :: s.stack := by
      have := (c.unmapped_ext hr hi1).2.stack
      exact this
    unfold curErrs at this
    rw [hst3, hlook] at this
    have h' : s3.errs[e]? = _ := this
    unfold St.errors
    rw [h']
    simp
  have hs' : s'.errors e = s3.errors e := by unfold St.errors; rw [c.errs']
  intro err herr'
  rw [hs', h3] at herr'
  rcases List.mem_append.1 herr' with he | he
  · exact hloc err he
  · have g3 := g3.elim (fun h => h) fun h => by
      have h := h.2
      rw [← href.1, c.unmapped] at h
      exact h.elim
    exact (g3 err he).cases

/-- C49. Every error `form.map` returns is at a field of the form's class, or at something inside one, or at the
`Dict` that takes unmapped keys or something inside it: it has that field's name and the text of the keys from
the source's root. -/
theorem C49_form (W : LawfulPath I) (hC : C.All Typed) (k : Nat) {id : Nat} {src : SrcArg P}
    (hsrc : SrcOK W src) {tags : List String} {reset : Bool} {u : Unmapped} (hu : u.All Typed)
    {raising : Bool} {s s' : St P} {e : Nat} (hi : Inv W s) (hl : Live s)
    (h : Form.map I L C k id src tags reset u raising s = (.ok e, s')) :
    ∃ cls p, (s.forms[id]?).map FormObj.cls = some cls ∧ MapsFrom I C cls src s p ∧
      ∀ err ∈ s'.errors e, Located W (W.shape p) (I.keys p) (InForm C cls u) err := by
  obtain ⟨cls, p, h1, h2, h3⟩ := C49_form_partial W (L := L) (Q := fun _ => False)
    (hC.imp fun _ => Typed.placed) k hsrc (Unmapped.All.imp (fun _ => Typed.placed) hu) hi hl h
  exact ⟨cls, p, h1, h2, fun e he => (h3 e he).elim (fun h => h) fun h => h.none.elim⟩

/-- C49 for a form mapped from a dict: the path of an error is the text (`a.b[0]`) of the keys of a part of the
form that has the name the error gives. -/
theorem C49_dict (hC : C.All Typed) (k : Nat) {id : Nat} {kvs : List (Val × Val)} {tags : List String}
    {reset : Bool} {u : Unmapped} (hu : u.All Typed) {raising : Bool} {s s' : St Path} {e : Nat}
    (hi : Inv (Path.lawful L) s) (hl : Live s)
    (h : Form.map (Path.ops L) L C k id (.data (.dict kvs)) tags reset u raising s = (.ok e, s')) :
    ∃ cls, (s.forms[id]?).map FormObj.cls = some cls ∧
      ∀ err ∈ s'.errors e, ∃ rel, InForm C cls u rel err.field ∧ PathSt.keysText L rel = .ok err.path := by
  obtain ⟨cls, p, h1, h2, h3⟩ := C49_form (Path.lawful L) hC k (by trivial) hu hi hl h
  refine ⟨cls, h1, fun err he => ?_⟩
  obtain ⟨rel, n, hE, hn, ht⟩ := h3 err he
  rcases h2 with h2 | ⟨h2, -⟩
  · cases h2
    refine ⟨rel, by rw [hn]; exact hE, ?_⟩
    rw [(Path.lawful L).native_keys, List.nil_append] at ht
    have ht : withLocation none (PathSt.keysText L rel) = .ok err.path := ht
    cases hk : PathSt.keysText L rel with
    | error x => rw [hk] at ht; cases ht
    | ok t => rw [hk] at ht; exact ht
  · cases h2

end Pilo
