import Verif.Props.Builders
import Verif.Props.Getattr

/-!
# C63: `String.format`

`pilo/fields.py:689-702`.
-/

namespace Pilo
open Getattr
variable {P : Type} {α : Type} {I : PathOps P} {L : Lib} {W : LawfulPath I} {C : Classes} {rec : Rec P}
  {f : Field} {s s1 : St P} {r : Nat} {q : P} {text : String} {b : ErrBuf}

/-- Following the attributes from `v` ends at `w`: those of forms are fields that have a value; those of other values
are what Python gives. -/
inductive Reaches (L : Lib) (C : Classes) (s : St P) : Val → List String → Val → Prop where
  | here {v : Val} : Reaches L C s v [] v
  | field {id : Nat} {n : String} {ns : List String} {f : Field} {v w : Val} (hd : Declares C s id n f)
      (he : s.entry id n = some v) (h : Reaches L C s v ns w) : Reaches L C s (.form id) (n :: ns) w
  | attr {u v w : Val} {n : String} {ns : List String} (hu : ∀ id, u ≠ .form id) (he : pyGetAttr L u n = some v)
      (h : Reaches L C s v ns w) : Reaches L C s u (n :: ns) w

/-- The value has no such attribute; for a form: no such field. -/
def Lacks (L : Lib) (C : Classes) (s : St P) (v : Val) (n : String) : Prop :=
  (∃ id o, v = .form id ∧ s.forms[id]? = some o ∧ (C o.cls).field? n = none) ∨
  ((∀ id, v ≠ .form id) ∧ pyGetAttr L v n = none)

/-- Every keyword reaches its value. -/
inductive Reached (L : Lib) (C : Classes) (s : St P) (root : Val) : List (String × List String) → List (String × Val) → Prop where
  | nil : Reached L C s root [] []
  | cons {n : String} {ns : List String} {v : Val} {kws : List (String × List String)} {vs : List (String × Val)}
      (hd : Reaches L C s root ns v) (tl : Reached L C s root kws vs) : Reached L C s root ((n, ns) :: kws) ((n, v) :: vs)

theorem declares_congr (h : s1.forms = s.forms) {id : Nat} {n : String} {g : Field} (hd : Declares C s id n g) :
    Declares C s1 id n g := by
  unfold Declares at hd ⊢
  rw [h]
  exact hd

theorem entry_congr (h : s1.forms = s.forms) (id : Nat) (n : String) : s1.entry id n = s.entry id n := by
  unfold St.entry; rw [h]

theorem getattr_form {id : Nat} {n : String} {g : Field} {v : Val} (hd : Declares C s id n g)
    (he : s.entry id n = some v) : evalProg I L C rec (.getattr (.form id) n) s = (.ok v, s) := by
  obtain ⟨o, h1, h2⟩ := hd
  show formGetattr I C rec id n s = _
  unfold formGetattr
  have h3 : formCls id s = (.ok o.cls, s) := by unfold formCls; rw [h1]
  rw [M.bind_ok h3, h2]
  exact get_stored (Declares.name ⟨o, h1, h2⟩).2 he rec

theorem getattr_other {u : Val} {n : String} (hu : ∀ id, u ≠ .form id) : evalProg I L C rec (.getattr u n) =
    match pyGetAttr L u n with
    | some w => M.pure w
    | none => M.raise (.attributeError ("object has no attribute '" ++ n ++ "'")) := by
  cases u <;> first | rfl | exact absurd rfl (hu _)

theorem chain_run {v w : Val} {ns : List String} (h : Reaches L C s v ns w) (hs : s1.forms = s.forms) :
    evalProg I L C rec (chain ns v) s1 = (.ok w, s1) := by
  induction h with
  | here => rfl
  | field hd he _ ih =>
    exact (M.bind_ok (getattr_form (I := I) (rec := rec) (declares_congr hs hd) ((entry_congr hs _ _).trans he))).trans ih
  | attr hu he _ ih =>
    refine (M.bind_ok (a := _) (s' := s1) ?_).trans ih
    rw [getattr_other hu, he]
    rfl

theorem chain_lacks {v w : Val} {ns ms : List String} {n : String} (h : Reaches L C s v ns w) (hl : Lacks L C s w n)
    (hs : s1.forms = s.forms) :
    evalProg I L C rec (chain (ns ++ n :: ms) v) s1 = (.error (.attributeError ("object has no attribute '" ++ n ++ "'")), s1) := by
  induction h with
  | here =>
    refine M.bind_error ?_
    rcases hl with ⟨id, o, rfl, h1, h2⟩ | ⟨h1, h2⟩
    · show formGetattr I C rec id n s1 = _
      unfold formGetattr
      have h3 : formCls id s1 = (.ok o.cls, s1) := by unfold formCls; rw [hs, h1]
      rw [M.bind_ok h3, h2]
      rfl
    · rw [getattr_other h1, h2]; rfl
  | field hd he _ ih =>
    exact (M.bind_ok (getattr_form (I := I) (rec := rec) (declares_congr hs hd) ((entry_congr hs _ _).trans he))).trans (ih hl)
  | attr hu he _ ih =>
    refine (M.bind_ok (a := _) (s' := s1) ?_).trans (ih hl)
    rw [getattr_other hu, he]
    rfl

theorem gather_run {root : Val} {kws : List (String × List String)} {vs : List (String × Val)}
    (h : Reached L C s root kws vs) (hs : s1.forms = s.forms) (k : List (String × Val) → Prog) :
    ∀ acc, evalProg I L C rec (gather root kws acc k) s1 = evalProg I L C rec (k (acc ++ vs)) s1 := by
  induction h with
  | nil => intro acc; rw [List.append_nil]; rfl
  | cons hd _ ih =>
    intro acc
    refine (M.bind_ok (chain_run hd hs)).trans ?_
    rw [ih, List.append_assoc]
    rfl

theorem gather_lacks {root w : Val} {kws post : List (String × List String)} {vs : List (String × Val)}
    {m n : String} {ns ms : List String}
    (h : Reached L C s root kws vs) (hr : Reaches L C s root ns w) (hl : Lacks L C s w n) (hs : s1.forms = s.forms)
    (k : List (String × Val) → Prog) :
    ∀ acc, evalProg I L C rec (gather root (kws ++ (m, ns ++ n :: ms) :: post) acc k) s1 =
      (.error (.attributeError ("object has no attribute '" ++ n ++ "'")), s1) := by
  induction h with
  | nil => intro acc; exact M.bind_error (chain_lacks hr hl hs)
  | cons hd _ ih =>
    intro acc
    exact (M.bind_ok (chain_run hd hs)).trans (ih _)

/-- The dictionary `values`. -/
def asValues (vs : List (String × Val)) : List (Val × Val) := vs.map fun kv => (.str kv.1, kv.2)

theorem ctxForm_run {id : Nat} (h : lookup Frame.form s1.stack = some id) :
    evalProg I L C rec .ctxForm s1 = (.ok (.form id), s1) := by
  have h1 : ctxGet Frame.form "form" s1 = (.ok id, s1) := by unfold ctxGet; rw [h]
  exact M.bind_ok h1

theorem format_run {id : Nat} {render : List (Val × Val) → Except Exc String} {kws : List (String × List String)}
    {vs : List (String × Val)} (hf : lookup Frame.form s1.stack = some id) (h : Reached L C s (.form id) kws vs)
    (hs : s1.forms = s.forms) : evalProg I L C rec (formatCompute render kws) s1 =
      ((match render (asValues vs) with | .ok t => .ok (.str t) | .error e => .error e), s1) := by
  refine (M.bind_ok (a := .tuple [.dict (asValues vs)]) (s' := s1) ?_).trans ?_
  · show M.tryCatch _ _ s1 = _
    unfold M.tryCatch
    have : evalProg I L C rec (.bind .ctxForm fun form => gather form kws [] fun vs =>
        .ret (.tuple [.dict (vs.map fun kv => (.str kv.1, kv.2))])) s1 = (.ok (.tuple [.dict (asValues vs)]), s1) := by
      refine (M.bind_ok (ctxForm_run hf)).trans ?_
      rw [gather_run h hs]
      rfl
    rw [this]
  · dsimp only
    cases render (asValues vs) <;> rfl

theorem format_lacks_run {id : Nat} {render : List (Val × Val) → Except Exc String} {kws post : List (String × List String)}
    {vs : List (String × Val)} {m n : String} {ns ms : List String} {w : Val} (hf : lookup Frame.form s1.stack = some id)
    (h : Reached L C s (.form id) kws vs) (hr : Reaches L C s (.form id) ns w) (hl : Lacks L C s w n)
    (hs : s1.forms = s.forms) : evalProg I L C rec (formatCompute render (kws ++ (m, ns ++ n :: ms) :: post)) s1 =
      evalProg I L C rec (.bind (.invalid ("object has no attribute '" ++ n ++ "'")) fun _ => .ret .ERROR) s1 := by
  have h1 : evalProg I L C rec (.bind .ctxForm fun form => gather form (kws ++ (m, ns ++ n :: ms) :: post) [] fun vs =>
        .ret (.tuple [.dict (vs.map fun kv => (.str kv.1, kv.2))])) s1 =
      (.error (.attributeError ("object has no attribute '" ++ n ++ "'")), s1) := by
    refine (M.bind_ok (ctxForm_run hf)).trans ?_
    exact gather_lacks h hr hl hs _ _
  have h2 : ∀ p, evalProg I L C rec (.tryCatch (.bind .ctxForm fun form => gather form (kws ++ (m, ns ++ n :: ms) :: post) [] fun vs =>
        .ret (.tuple [.dict (vs.map fun kv => (.str kv.1, kv.2))])) p) s1 =
      evalProg I L C rec (p (.attributeError ("object has no attribute '" ++ n ++ "'"))) s1 := by
    intro p
    show M.tryCatch _ _ s1 = _
    unfold M.tryCatch
    rw [h1]
  unfold formatCompute
  show M.bind _ _ s1 = _
  have h3 := h2 fun ex => if ex.isAttributeError then .bind (.invalid ex.str) fun _ => .ret .ERROR else .raise ex
  rcases hi : evalProg I L C rec (.invalid ("object has no attribute '" ++ n ++ "'")) s1 with ⟨x, s2⟩
  have h4 : evalProg I L C rec (.bind (.invalid ("object has no attribute '" ++ n ++ "'")) fun _ => .ret .ERROR) s1 =
      (match x with | .ok _ => .ok .ERROR | .error e => .error e, s2) := by
    cases x with
    | ok a => exact (M.bind_ok hi).trans rfl
    | error e => exact M.bind_error hi
  have h5 := h3.trans h4
  rw [h4]
  cases x with
  | ok a => exact (M.bind_ok h5).trans rfl
  | error e => exact M.bind_error h5

/-! ## The field as a whole -/

/-- The field with this program for computing its value. -/
def Field.computing (f : Field) (p : Prog) : Field :=
  f.with fun c => { c with compute := some { target := some .none, body := fun _ => p } }

theorem computing_congr {p p' : Prog} (hr : f.core.resolve = none)
    (h : ∀ s1 : St P, s1.forms = s.forms → lookup Frame.form s1.stack = lookup Frame.form s.stack →
      evalProg I L C rec p s1 = evalProg I L C rec p' s1) :
    mapFieldF I L C rec (f.computing p) .NONE s = mapFieldF I L C rec (f.computing p') .NONE s := by
  have hstart : ∀ s1 : St P, s1.forms = s.forms → lookup Frame.form s1.stack = lookup Frame.form s.stack →
      fieldStart I L C rec (f.computing p) s1 = fieldStart I L C rec (f.computing p') s1 := by
    intro s1 h1 h2
    have e := h s1 h1 h2
    have hc : ∀ p, fieldStart I L C rec (f.computing p) = (evalProg I L C rec p >>= fun v =>
      if v.isNONE then (match f.core.default with
      | .hook h => callHook I L C rec h
      | _ => fieldDefault I L C rec f)
      else if v.isIgnore then M.pure v
      else fieldCheck I L C rec f v) := fun _ => rfl
    rw [hc, hc]
    rcases hp : evalProg I L C rec p' s1 with ⟨x, s2⟩
    rw [hp] at e
    cases x with
    | ok a => rw [M.bind_ok e, M.bind_ok hp]
    | error x => rw [M.bind_error e, M.bind_error hp]
  have hinner : withPush I (pushVars { field := some f.name, parent := some .field })
        (fieldMapInner I L C rec (f.computing p) .NONE) s =
      withPush I (pushVars { field := some f.name, parent := some .field })
        (fieldMapInner I L C rec (f.computing p') .NONE) s := by
    refine withPush_congr fun s1 hs1 => ?_
    cases hs1
    have hr1 : (f.computing p).core.resolve = none := hr
    have hr2 : (f.computing p').core.resolve = none := hr
    unfold fieldMapInner withResolve
    rw [hr1, hr2]
    show (match f.kind with
      | .group _ => fieldStart I L C rec (f.computing p)
      | _ => if noSrc f.core.src then fieldStart I L C rec (f.computing p) else
          withPush I (pushKey I f.core.src) (fieldStart I L C rec (f.computing p))) _ =
      (match f.kind with
      | .group _ => fieldStart I L C rec (f.computing p')
      | _ => if noSrc f.core.src then fieldStart I L C rec (f.computing p') else
          withPush I (pushKey I f.core.src) (fieldStart I L C rec (f.computing p'))) _
    have stay := hstart { s with stack := { field := some f.name, parent := some .field, src := .absent } :: s.stack }
      rfl (by simp [lookup])
    have move : withPush I (pushKey I f.core.src) (fieldStart I L C rec (f.computing p))
          { s with stack := { field := some f.name, parent := some .field, src := .absent } :: s.stack } =
        withPush I (pushKey I f.core.src) (fieldStart I L C rec (f.computing p'))
          { s with stack := { field := some f.name, parent := some .field, src := .absent } :: s.stack } := by
      refine withPush_congr fun s2 hs2 => ?_
      unfold pushKey at hs2
      rcases ho : onPath (pathAppend I f.core.src) { s with stack := { field := some f.name, parent := some .field, src := .absent } :: s.stack } with ⟨x, s3⟩
      cases x with
      | error e => rw [M.bind_error ho] at hs2; cases hs2
      | ok u =>
        rw [M.bind_ok ho] at hs2
        have hk : s3.forms = s.forms ∧ s3.stack = { field := some f.name, parent := some .field, src := .absent } :: s.stack := by
          have := congrArg Prod.snd ho
          unfold onPath at this
          split at this <;> (try split at this) <;> (dsimp only at this; subst this; exact ⟨rfl, rfl⟩)
        cases hs2
        exact hstart _ hk.1 (by simp [lookup, hk.2])
    cases hk : f.kind <;> dsimp only <;> first | exact stay | (split; exact stay; exact move)
  have key : ∀ p, mapFieldF I L C rec (f.computing p) .NONE =
      (withPush I (pushVars { field := some f.name, parent := some .field })
        (fieldMapInner I L C rec (f.computing p) .NONE) >>= fun v => do
          if f.core.attachParent && !v.isIgnore then setParent v
          M.pure v) := fun _ => rfl
  rw [key, key]
  rcases hx : withPush I (pushVars { field := some f.name, parent := some .field })
        (fieldMapInner I L C rec (f.computing p') .NONE) s with ⟨x, s2⟩
  rw [hx] at hinner
  cases x with
  | ok a => rw [M.bind_ok hinner, M.bind_ok hx]
  | error e => rw [M.bind_error hinner, M.bind_error hx]

theorem computing_alone {p : Prog} (hf : HookFree f) (hk : f.kind.leaf = true) (hp : p.Alone I L) : Alone I L (f.computing p) where
  leaf := hk
  default := hf.default
  resolve := hf.resolve
  compute := by
    intro h e t
    cases e
    exact hp
  parse := by intro h e; exact absurd (hf.parse.symm.trans e) (by simp)
  munge := by intro h e; exact absurd (hf.munge.symm.trans e) (by simp)
  filter := hf.filter
  validate := hf.validate

variable {render : List (Val × Val) → Except Exc String} {kws post : List (String × List String)} {vs : List (String × Val)}
  {c : StrCfg} {id : Nat}

/-- C63. A `String` field with `format`, without other hooks, translations and ignored values, mapped as part of a form
for which all the attributes named have values.  The text formatted from exactly those values is returned if the
field's constraints hold for it; otherwise there is `ERROR` and exactly one error.  The source is not looked at. -/
theorem C63_format_partial {t : String} (sp : Spot I W (f.format render kws) s r q text b) (hf : HookFree f)
    (hk : f.kind = .string c) (ha : f.core.attachParent = false) (ht : f.core.translations = [])
    (hig : f.core.ignores = []) (hform : s.env.form = some id) (hv : Reached L C s (.form id) kws vs)
    (hr : render (asValues vs) = .ok t) :
    (StringOK c t → Accepts (mapFieldF I L C rec (f.format render kws) .NONE) s (.str t)) ∧
    (¬ StringOK c t → Rejects (mapFieldF I L C rec (f.format render kws) .NONE) s f text r) := by
  have hleaf : f.kind.leaf = true := by rw [hk]; rfl
  have he : mapFieldF I L C rec (f.format render kws) .NONE s = mapFieldF I L C rec (f.constant (.str t)) .NONE s := by
    refine computing_congr (p := formatCompute render kws) (p' := .ret (.str t)) hf.resolve fun s1 h1 h2 => ?_
    rw [format_run (h2.trans hform) hv h1, hr]
    rfl
  have sp' : Spot I W (f.constant (.str t)) s r q text b := ⟨sp.inv, sp.live, sp.place, sp.text, sp.errs, sp.collect⟩
  have hal := constant_alone (I := I) (L := L) hf hleaf (.str t)
  have hi' : (Val.str t).inList f.core.ignores = false := by rw [hig]; rfl
  obtain ⟨hok, hbad⟩ := stringValidate_spec (I := I) (L := L) c t ht
  have hval : Lex.kindValidate I L f (.str t) = Lex.stringValidate I L f c (.str t) := by
    rw [kindValidate_nonnull rfl, hk]
  refine ⟨fun h => ?_, fun h => ?_⟩
  · have : Accepts (mapFieldF I L C rec (f.constant (.str t)) .NONE) s (.str t) := by
      refine hal.accepts sp' ha fun τ hp hb => ⟨q, ?_, ⟨rfl, sp.wf, rfl⟩⟩
      rw [constant_start rfl, fieldCheck_plain hf ht rfl hi', hval, hok h, List.append_nil, ← hb, ← hp]
      rfl
    exact ⟨by rw [he]; exact this.res, by rw [he]; exact this.errs⟩
  · obtain ⟨msg, hm⟩ := hbad h
    have : Adds (mapFieldF I L C rec (f.constant (.str t)) .NONE) s .ERROR
        { kind := .invalid msg, path := text, field := f.name, pathRef := some r } := by
      refine hal.adds sp' ha fun τ hp hb => ⟨q, ?_, ⟨rfl, sp.wf, rfl⟩⟩
      rw [constant_start rfl, fieldCheck_plain hf ht rfl hi', hval, hm, ← hp]
      exact (T.bind_ok (rejectWith_run msg hp sp.text hb sp.collect (innerEnv_field _ _))).trans rfl
    exact ⟨msg, by rw [he]; exact this.res, by rw [he]; exact this.errs⟩

/-- C63. A name that is not an attribute (of the form: not a field) gives `ERROR` and exactly one error that says
so. -/
theorem C63_unknown {m n : String} {ns ms : List String} {w : Val}
    (sp : Spot I W (f.format render (kws ++ (m, ns ++ n :: ms) :: post)) s r q text b) (hf : HookFree f)
    (hk : f.kind = .string c) (ha : f.core.attachParent = false) (hform : s.env.form = some id)
    (hv : Reached L C s (.form id) kws vs) (hr : Reaches L C s (.form id) ns w) (hl : Lacks L C s w n) :
    Adds (mapFieldF I L C rec (f.format render (kws ++ (m, ns ++ n :: ms) :: post)) .NONE) s .ERROR
      { kind := .invalid ("object has no attribute '" ++ n ++ "'"), path := text, field := f.name, pathRef := some r } := by
  have hleaf : f.kind.leaf = true := by rw [hk]; rfl
  have he : mapFieldF I L C rec (f.format render (kws ++ (m, ns ++ n :: ms) :: post)) .NONE s =
      mapFieldF I L C rec (f.computing (.bind (.invalid ("object has no attribute '" ++ n ++ "'")) fun _ => .ret .ERROR)) .NONE s :=
    computing_congr hf.resolve fun s1 h1 h2 => format_lacks_run (h2.trans hform) hv hr hl h1
  have sp' : Spot I W (f.computing (.bind (.invalid ("object has no attribute '" ++ n ++ "'")) fun _ => .ret .ERROR)) s r q text b :=
    ⟨sp.inv, sp.live, sp.place, sp.text, sp.errs, sp.collect⟩
  have hal : Alone I L (f.computing (.bind (.invalid ("object has no attribute '" ++ n ++ "'")) fun _ => .ret .ERROR)) :=
    computing_alone hf hleaf ⟨⟨trivial, fun _ => trivial⟩, fun _ _ _ _ => rfl⟩
  have : Adds (mapFieldF I L C rec (f.computing (.bind (.invalid ("object has no attribute '" ++ n ++ "'")) fun _ => .ret .ERROR)) .NONE) s .ERROR
      { kind := .invalid ("object has no attribute '" ++ n ++ "'"), path := text, field := f.name, pathRef := some r } := by
    refine hal.adds sp' ha fun τ hp hb => ⟨q, ?_, ⟨rfl, sp.wf, rfl⟩⟩
    have h1 := report_run (τ := τ) (.invalid ("object has no attribute '" ++ n ++ "'")) hp sp.text hb sp.collect
      (innerEnv_field (f.computing (.bind (.invalid ("object has no attribute '" ++ n ++ "'")) fun _ => .ret .ERROR)) s.env)
    have h2 : Lex.evalProg I L noClasses (Lex.mapField I L noClasses 0) (.invalid ("object has no attribute '" ++ n ++ "'"))
        ((f.computing (.bind (.invalid ("object has no attribute '" ++ n ++ "'")) fun _ => .ret .ERROR)).innerEnv s.env) τ =
        (.ok .none, _) := T.bind_ok h1
    have h3 : Lex.computeStep I L noClasses (Lex.mapField I L noClasses 0)
        (f.computing (.bind (.invalid ("object has no attribute '" ++ n ++ "'")) fun _ => .ret .ERROR))
        ((f.computing (.bind (.invalid ("object has no attribute '" ++ n ++ "'")) fun _ => .ret .ERROR)).innerEnv s.env) τ =
        (.ok .ERROR, _) := T.bind_ok h2
    refine (T.bind_ok h3).trans ?_
    rw [← hp]
    rfl
  exact ⟨by rw [he]; exact this.res, by rw [he]; exact this.errs⟩

end Pilo
