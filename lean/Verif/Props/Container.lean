import Verif.Props.Made
import Verif.Props.Single

/-!
# C77: the fields and limits a container is made with

`pilo/fields.py:1068-1093,1142-1192,1320-1341,1351-1357`.
-/

namespace Pilo
variable {P : Type} {I : PathOps P} {L : Lib} {W : LawfulPath I} {C : Classes} {rec : Rec P}
  {s : St P} {r : Nat} {q : P} {text : String} {b : ErrBuf} {args : List Arg} {kw : Kwargs} {f : Field}

/-! ## A parsed value that is then checked -/

/-- The value parsed is `v`, the errors of its parts are `b2`.  If the check says yes, the result is `v` and there are no
further errors; if it rejects with a message, the result is `ERROR` and the message is one further error. -/
theorem parsed_checked {n : Nat} {v : Val} {τ2 : TSt P} {b2 : ErrBuf} (sp : Spot I W f s r q text b)
    (hC : C.All HookFree) (hfa : f.All HookFree) (ha : f.core.attachParent = false) (ht : f.core.translations = [])
    (hi : v.inList f.core.ignores = false) (hv : v.isIgnore = false) (hpr : Present I q)
    (hparse : Lex.kindParse I L C (Lex.mapField I L C n) f (f.innerEnv s.env)
      { s.view with path := some (some (r, asked I q)) } = (.ok v, τ2)) (hb2 : τ2.errs = some b2) :
    (Lex.kindValidate I L f v = T.pure true → (mapField I L C (n + 1) f .NONE s).1 = .ok v ∧
      curErrs (mapField I L C (n + 1) f .NONE s).2 = some b2) ∧
    (∀ msg, Lex.kindValidate I L f v = Lex.rejectWith I msg → (mapField I L C (n + 1) f .NONE s).1 = .ok .ERROR ∧
      curErrs (mapField I L C (n + 1) f .NONE s).2 = some { b2 with items := b2.items ++
        [{ kind := .invalid msg, path := text, field := f.name, pathRef := some r }] }) := by
  have hkeep := TKeeps.kindParse (W := W) (ok := fun _ => True) (L := L) hC.calm (TKeeps.mapField (L := L) hC.calm n) hfa.calm
    (f.innerEnv s.env) { s.view with path := some (some (r, asked I q)) }
    (by intro r' p' h; cases h; exact (asked_same sp.wf).wf)
  rw [hparse] at hkeep
  obtain ⟨q2, hq2, hs2⟩ := hkeep.path
  have hcol : b2.raising = false := by
    have := hkeep.errs
    unfold ErrKeep St.view at this
    simp only [sp.errs, hb2] at this
    obtain ⟨es, he⟩ := this
    cases he
    exact sp.collect
  refine ⟨fun h => ?_, fun msg hm => ?_⟩
  · have hval : Lex.kindValidate I L f v (f.innerEnv s.env) τ2 = (.ok true, τ2) := by rw [h]; rfl
    obtain ⟨h1, h2⟩ := sp.parsed hC hfa ha ht hpr hv hi hparse hval rfl
    exact ⟨h1, by rw [h2, hb2]⟩
  · have hval := rejectWith_run (env := f.innerEnv s.env) msg hq2
      (by rw [hs2.render (asked_same sp.wf).wf, Same.render (asked_same sp.wf) sp.wf, sp.text]) hb2 hcol
      (innerEnv_field _ _)
    rw [← hm] at hval
    exact sp.parsed hC hfa ha ht hpr hv hi hparse hval rfl

/-! ## `Dict` -/

/-- The limits of a `Dict`: the required keys (none, or a set of them) and how many there may be. -/
def DictOK (ks : List Val) (mx : Option Nat) (kvs : List (Val × Val)) : Prop :=
  (∀ k ∈ ks, k.inList (kvs.map Prod.fst) = true) ∧ ∀ m, mx = some m → kvs.length ≤ m

/-- The keys that have to be there; a list that is not empty has no meaning (`C26_required_list`). -/
inductive Required.Asks : Required → List Val → Prop
  | set (ks : List Val) : Asks (.set ks) ks
  | nothing : Asks (.list []) []

theorem dictValidate_spec {req : Required} {ks : List Val} (hr : req.Asks ks) (mx : Option Nat) (hm : mx ≠ some 0)
    (hj : ∀ ms, ms ≠ [] → ms ⊆ ks → ∃ t, L.joinKeys ms = some t) (kvs : List (Val × Val)) :
    (DictOK ks mx kvs → Lex.dictValidate I L req mx (.dict kvs) = T.pure true) ∧
    (¬ DictOK ks mx kvs → ∃ msg, Lex.dictValidate I L req mx (.dict kvs) = Lex.rejectWith I msg) := by
  have hmiss : ∃ l, missingKeys req (.dict kvs) = .ok l ∧ l ⊆ ks ∧ (l = [] ↔ ∀ k ∈ ks, k.inList (kvs.map Prod.fst) = true) := by
    cases hr with
    | nothing => exact ⟨[], rfl, List.nil_subset _, by simp⟩
    | set ks =>
      cases ks with
      | nil => exact ⟨[], rfl, List.nil_subset _, by simp⟩
      | cons a as =>
        refine ⟨_, rfl, (fun _ h => (List.mem_filter.1 h).1), ?_⟩
        rw [List.filter_eq_nil_iff]
        simp
  obtain ⟨l, hl, hsub, hl'⟩ := hmiss
  unfold Lex.dictValidate
  rw [hl]
  simp only [T.ofExcept_ok_bind]
  cases l with
  | cons x xs =>
    obtain ⟨t, ht⟩ := hj _ (by intro h; cases h) hsub
    simp only [List.isEmpty_cons, Bool.not_false, if_true, ht]
    exact ⟨fun h => absurd (hl'.2 h.1) (by simp), fun _ => ⟨_, rfl⟩⟩
  | nil =>
    simp only [List.isEmpty_nil, Bool.not_true, Bool.false_eq_true, if_false]
    have hreq := hl'.1 rfl
    cases mx with
    | none => exact ⟨fun _ => rfl, fun h => absurd ⟨hreq, by intro _ h; cases h⟩ h⟩
    | some m =>
      cases m with
      | zero => exact absurd rfl hm
      | succ m =>
        simp only
        rw [show pyLen (.dict kvs) = .ok kvs.length from rfl]
        simp only [T.ofExcept_ok_bind]
        by_cases hlt : m + 1 < kvs.length
        · rw [if_pos hlt]
          exact ⟨fun h => absurd (h.2 _ rfl) (by omega), fun _ => ⟨_, rfl⟩⟩
        · rw [if_neg hlt]
          exact ⟨fun _ => rfl, fun h => absurd ⟨hreq, by intro _ h; cases h; omega⟩ h⟩

/-- C26, required keys and the number of keys.  The entries parsed are `kvs`.  If all required keys are there and there are
not too many, the dict is returned and nothing further is reported; otherwise the result is `ERROR` and one further
`Invalid` error with the path of the dict is added. -/
theorem C26_dict_bounds {n : Nat} {kf vf : Field} {kfl : Option (Hook (Val → Prog))} {req : Required} {ks : List Val}
    {mx : Option Nat} {kvs : List (Val × Val)} {τ2 : TSt P} {b2 : ErrBuf} (sp : Spot I W f s r q text b)
    (hC : C.All HookFree) (hfa : f.All HookFree) (hk : f.kind = .dict kf vf kfl req mx) (hr : req.Asks ks) (hm : mx ≠ some 0)
    (hj : ∀ ms, ms ≠ [] → ms ⊆ ks → ∃ t, L.joinKeys ms = some t)
    (ha : f.core.attachParent = false) (ht : f.core.translations = [])
    (hi : (Val.dict kvs).inList f.core.ignores = false) (hpr : Present I q)
    (hparse : Lex.dictParse I L C (Lex.mapField I L C n) f kf vf kfl (f.innerEnv s.env)
      { s.view with path := some (some (r, asked I q)) } = (.ok (.dict kvs), τ2))
    (hb2 : τ2.errs = some b2) :
    (DictOK ks mx kvs → (mapField I L C (n + 1) f .NONE s).1 = .ok (.dict kvs) ∧
      curErrs (mapField I L C (n + 1) f .NONE s).2 = some b2) ∧
    (¬ DictOK ks mx kvs → (mapField I L C (n + 1) f .NONE s).1 = .ok .ERROR ∧
      ∃ msg, curErrs (mapField I L C (n + 1) f .NONE s).2 = some { b2 with items := b2.items ++
        [{ kind := .invalid msg, path := text, field := f.name, pathRef := some r }] }) := by
  have hparse' : Lex.kindParse I L C (Lex.mapField I L C n) f (f.innerEnv s.env)
      { s.view with path := some (some (r, asked I q)) } = (.ok (.dict kvs), τ2) := by
    unfold Lex.kindParse; rw [hk]; exact hparse
  have hval : Lex.kindValidate I L f (.dict kvs) = Lex.dictValidate I L req mx (.dict kvs) := by
    rw [kindValidate_nonnull rfl, hk]
  obtain ⟨hok, hbad⟩ := dictValidate_spec (I := I) hr mx hm hj kvs
  obtain ⟨h1, h2⟩ := parsed_checked sp hC hfa ha ht hi rfl hpr hparse' hb2
  rw [hval] at h1 h2
  refine ⟨fun h => h1 (hok h), fun h => ?_⟩
  obtain ⟨msg, hm⟩ := hbad h
  exact ⟨(h2 msg hm).1, msg, (h2 msg hm).2⟩

theorem attach_all {p : Field → Prop} {name : Option String} (h : p (f.attach name)) (hk : Kind.All p f.kind) :
    (f.attach name).All p := by
  cases f
  exact .mk h hk

/-- What the arguments of a `Dict` say about the entries. -/
structure DictSpec (kw : Kwargs) (kvs : List (Val × Val)) : Prop where
  required : ∀ ks, kw.lookup "required_keys" = some (.set ks) → ∀ k ∈ ks, k.inList (kvs.map Prod.fst) = true
  few : ∀ m, kw.lookup "max_keys" = some (.val (.int m)) → (kvs.length : Int) ≤ m

theorem newDict_spec {k v : Field} (h : Field.newDict (.field k :: .field v :: args) kw = .ok f)
    (hr : ∀ a, kw.lookup "required_keys" = some a → ∃ ks, a = .set ks)
    (h0 : kw.lookup "max_keys" ≠ some (.val (.int 0))) :
    ∃ req ks mx, f.kind = .dict (k.attach none) (v.attach none) none req mx ∧ req.Asks ks ∧ mx ≠ some 0 ∧
      (ks = [] ∨ kw.lookup "required_keys" = some (.set ks)) ∧ ∀ kvs, DictOK ks mx kvs ↔ DictSpec kw kvs := by
  obtain ⟨req, h1, h⟩ := bind_inv h
  obtain ⟨mx, h2, h⟩ := bind_inv h
  have hmx : mx ≠ some 0 ∧ ∀ n : Nat, (∀ m, mx = some m → n ≤ m) ↔
      ∀ m, kw.lookup "max_keys" = some (.val (.int m)) → (n : Int) ≤ m := by
    cases hl : kw.lookup "max_keys" with
    | none =>
      rw [hl] at h2
      cases h2
      exact ⟨(by intro h; cases h), fun n => ⟨fun _ _ h => (by cases h), fun _ _ h => (by cases h)⟩⟩
    | some a =>
      rw [hl] at h2 h0
      unfold Arg.size at h2
      split at h2
      case h_1 h => cases h
      case h_2 h =>
        cases h; cases h2
        exact ⟨(by intro h; cases h), fun n => ⟨fun _ _ h => (by cases h), fun _ _ h => (by cases h)⟩⟩
      case h_3 i h =>
        cases h
        split at h2
        case isFalse => cases h2
        case isTrue hi =>
          cases h2
          refine ⟨fun h => h0 ?_, fun n => ⟨fun hh m hm => ?_, fun hh m hm => ?_⟩⟩
          · have : i = 0 := by injection h; omega
            rw [this]
          · cases hm
            have := hh _ rfl
            omega
          · cases hm
            have := hh _ rfl
            omega
      case h_4 => cases h2
  have hreq : ∃ ks, req.Asks ks ∧ (ks = [] ∨ kw.lookup "required_keys" = some (.set ks)) ∧
      ∀ kvs : List (Val × Val), (∀ k ∈ ks, k.inList (kvs.map Prod.fst) = true) ↔
      ∀ ks, kw.lookup "required_keys" = some (.set ks) → ∀ k ∈ ks, k.inList (kvs.map Prod.fst) = true := by
    cases hl : kw.lookup "required_keys" with
    | none =>
      rw [hl] at h1
      cases h1
      exact ⟨[], .nothing, .inl rfl, fun kvs => ⟨fun _ _ h => (by cases h), fun _ _ h => (by cases h)⟩⟩
    | some a =>
      obtain ⟨ks, rfl⟩ := hr a hl
      rw [hl] at h1
      cases h1
      exact ⟨ks, .set ks, .inr rfl, fun kvs => ⟨fun h _ hk => (by cases hk; exact h), fun h => h _ rfl⟩⟩
  obtain ⟨ks, r1, r2, r3⟩ := hreq
  exact ⟨req, ks, mx, new_kind h, r1, hmx.1, r2, fun kvs => ⟨fun h => ⟨(r3 kvs).1 h.1, (hmx.2 _).1 h.2⟩,
    fun h => ⟨(r3 kvs).2 h.required, (hmx.2 _).2 h.few⟩⟩⟩

/-- C77 for `Dict`: a field made by `Dict(key_field, value_field, ...)`, mapped where there is a mapping whose entries, by
the two fields given, are `kvs`: it gives them if they are as the arguments say, and else `ERROR` and one further `Invalid`
error. -/
theorem C77_dict_partial {k v : Field} {name : Option String} {n : Nat} {kvs : List (Val × Val)} {τ2 : TSt P} {b2 : ErrBuf}
    (h : Field.newDict (.field k :: .field v :: args) kw = .ok f) (hc : kw.NoCall)
    (hr : ∀ a, kw.lookup "required_keys" = some a → ∃ ks, a = .set ks)
    (h0 : kw.lookup "max_keys" ≠ some (.val (.int 0)))
    (hj : ∀ ks ms, kw.lookup "required_keys" = some (.set ks) → ms ≠ [] → ms ⊆ ks → ∃ t, L.joinKeys ms = some t)
    (h1 : kw.Silent "attach_parent") (h2 : kw.Silent "translate") (h3 : kw.Silent "ignore")
    (hC : C.All HookFree) (hkf : (k.attach none).All HookFree) (hvf : (v.attach none).All HookFree)
    (sp : Spot I W (f.attach name) s r q text b) (hpr : Present I q)
    (hparse : Lex.dictParse I L C (Lex.mapField I L C n) (f.attach name) (k.attach none) (v.attach none) none
      ((f.attach name).innerEnv s.env) { s.view with path := some (some (r, asked I q)) } = (.ok (.dict kvs), τ2))
    (hb2 : τ2.errs = some b2) :
    (DictSpec kw kvs → (mapField I L C (n + 1) (f.attach name) .NONE s).1 = .ok (.dict kvs) ∧
      curErrs (mapField I L C (n + 1) (f.attach name) .NONE s).2 = some b2) ∧
    (¬ DictSpec kw kvs → (mapField I L C (n + 1) (f.attach name) .NONE s).1 = .ok .ERROR ∧
      ∃ msg, curErrs (mapField I L C (n + 1) (f.attach name) .NONE s).2 = some { b2 with items := b2.items ++
        [{ kind := .invalid msg, path := text, field := name, pathRef := some r }] }) := by
  obtain ⟨req, ks, mx, hk, hr, hm, hks, hspec⟩ := newDict_spec h hr h0
  have hmk : Maker.dict.make (.field k :: .field v :: args) kw = .ok f := h
  have ho := C76_options (by intro h; cases h) hmk
  rw [← hspec kvs]
  refine C26_dict_bounds sp hC (attach_all (made_free (by intro h; cases h) hmk hc name) ?_) hk hr hm ?_
    (ho.attached h1) (ho.translated h2) ?_ hpr hparse hb2
  · rw [hk]
    exact .dict hkf hvf
  · intro ms hne hms
    rcases hks with rfl | hks
    · exact absurd (List.eq_nil_of_subset_nil hms) hne
    · exact hj ks ms hks hne hms
  · show Val.inList _ f.core.ignores = false
    rw [ho.ignored h3]
    rfl

/-! ## `List` -/

/-- What a `List` is made of. -/
theorem newList_kind {g : Field} (h : Field.newList (.field g :: args) kw = .ok f) :
    ∃ lo hi, f.kind = .list (g.attach none) lo hi (((kw.lookup "allow_field").map Arg.truthy).getD false) ∧
      (kw.lookup "length" ≠ some (.val (.int 0)) → ∀ n, LenOK lo hi n ↔ LengthSpec kw n) := by
  have hs := fun h0 => newList_spec (kw := kw) h h0
  obtain ⟨⟨g', args', kw1⟩, h1, h⟩ := bind_inv h
  cases h1
  obtain ⟨⟨lo, hi, kw2⟩, h2, h⟩ := bind_inv h
  have hk := new_kind h
  refine ⟨lo, hi, ?_, fun h0 => ?_⟩
  · rw [hk, readListLength_kw h2 (by decide)]
  · obtain ⟨g', lo', hi', allow', hk', hs'⟩ := hs h0
    rw [hk] at hk'
    cases hk'
    exact hs'

/-- C77 for `List`: a field made by `List(field, ...)`.  Where the source is no sequence, it is refused unless the argument
`allow_field` is truthy; with it, the field given is mapped there, and what it gives is the only item, if the arguments allow
for a list of one. -/
theorem C77_list_partial {g : Field} {name : Option String} {n : Nat} (h : Field.newList (.field g :: args) kw = .ok f)
    (hc : kw.NoCall) (h0 : kw.lookup "length" ≠ some (.val (.int 0)))
    (h1 : kw.Silent "attach_parent") (h2 : kw.Silent "translate") (h3 : kw.Silent "ignore")
    (hC : C.All HookFree) (hg : (g.attach none).All HookFree)
    (sp : Spot I W (f.attach name) s r q text b) (hns : NoSequence I q) :
    ((∀ a, kw.lookup "allow_field" = some a → a.truthy = false) →
      (mapField I L C (n + 1) (f.attach name) .NONE s).1 = .ok .ERROR ∧
      ∃ msg, curErrs (mapField I L C (n + 1) (f.attach name) .NONE s).2 = some { b with items := b.items ++
        [{ kind := .invalid msg, path := text, field := name, pathRef := some r }] }) ∧
    (∀ a v τ2 b2, kw.lookup "allow_field" = some a → a.truthy = true → v.isIgnore = false →
      Lex.mapField I L C n (g.attach none) .NONE ((f.attach name).innerEnv s.env)
        { s.view with path := some (some (r, (I.sequence (asked I q)).2)) } = (.ok v, τ2) → τ2.errs = some b2 →
      (LengthSpec kw 1 → (mapField I L C (n + 1) (f.attach name) .NONE s).1 = .ok (.list [v]) ∧
        curErrs (mapField I L C (n + 1) (f.attach name) .NONE s).2 = some b2) ∧
      (¬ LengthSpec kw 1 → (mapField I L C (n + 1) (f.attach name) .NONE s).1 = .ok .ERROR ∧
        ∃ msg, curErrs (mapField I L C (n + 1) (f.attach name) .NONE s).2 = some { b2 with items := b2.items ++
          [{ kind := .invalid msg, path := text, field := name, pathRef := some r }] })) := by
  obtain ⟨lo, hi, hk, hlen⟩ := newList_kind h
  have hmk : Maker.list.make (.field g :: args) kw = .ok f := h
  have ho := C76_options (by intro h; cases h) hmk
  have hfa : (f.attach name).All HookFree := attach_all (made_free (by intro h; cases h) hmk hc name) (by rw [hk]; exact .list hg)
  refine ⟨fun ha => ?_, fun a v τ2 b2 ha ht hv hitem hb2 => ?_⟩
  · refine C55_refused sp hC hfa (g := g.attach none) (lo := lo) (hi := hi) ?_ (ho.attached h1) hns
    rw [attach_kind, hk]
    cases hl : kw.lookup "allow_field" with
    | none => rfl
    | some a => rw [Option.map_some, Option.getD_some, ha a hl]
  · rw [← hlen h0]
    refine C55_single sp hC hfa ?_ (ho.attached h1) (ho.translated h2) ?_ hns hv hitem hb2
    · rw [attach_kind, hk, ha, Option.map_some, Option.getD_some, ht]
    · show Val.inList _ f.core.ignores = false
      rw [ho.ignored h3]
      rfl

/-! ## `SubForm`, `PolymorphicSubForm` -/

/-- What the argument `unmapped` says: nothing, a way to go about keys that are left, a field for their values, or two fields
for keys and values. -/
inductive UnmappedAs : Option Arg → Unmapped → Prop
  | nothing : UnmappedAs none (.str .ignore)
  | ignore : UnmappedAs (some (.val (.str "ignore"))) (.str .ignore)
  | capture : UnmappedAs (some (.val (.str "capture"))) (.str .capture)
  | none : UnmappedAs (some (.val .none)) (.str .none)
  | value (f : Field) : UnmappedAs (some (.field f)) (.value f)
  | pair (k v : Field) : UnmappedAs (some (.tuple [.field k, .field v])) (.pair k v)
  | list (k v : Field) : UnmappedAs (some (.list [.field k, .field v])) (.pair k v)
  | empty : UnmappedAs (some (.val (.str ""))) (.str .none)
  | bad (x : String) (h : x ∉ ["ignore", "capture", ""]) : UnmappedAs (some (.val (.str x))) (.str .bad)

theorem readUnmapped_spec {a : Arg} {u : Unmapped} (h : readUnmapped a = .ok u) : UnmappedAs (some a) u := by
  unfold readUnmapped at h
  split at h
  · cases h; exact .none
  · cases h; exact .capture
  · cases h; exact .ignore
  · cases h; exact .empty
  · rename_i x h1 h2 h3
    cases h
    exact .bad _ (by simp; exact ⟨fun h => h2 (by rw [h]), fun h => h1 (by rw [h]), fun h => h3 (by rw [h])⟩)
  · cases h; exact .value _
  · cases h; exact .pair _ _
  · cases h; exact .list _ _
  · cases h

/-- C77 for `SubForm`: the class given, the argument `reset` (by default no) and the argument `unmapped` (by default the keys
that are left are ignored). -/
theorem C77_subform {cls : Nat} (h : Field.newSubForm (.form cls :: args) kw = .ok f)
    (hr : kw.lookup "reset" ≠ some (.val .NOT_SET)) (hu : kw.lookup "unmapped" ≠ some (.val .NOT_SET)) :
    ∃ u, f.kind = .subform cls (((kw.lookup "reset").map Arg.truthy).getD false) u ∧ UnmappedAs (kw.lookup "unmapped") u := by
  obtain ⟨y, -, h⟩ := bind_inv (show (readSrc args kw >>= fun src =>
    subformOptions cls false (.str .ignore) { src := src } (kw.drop ["src"])) = .ok f from h)
  obtain ⟨rs, h2, h⟩ := bind_inv h
  obtain ⟨u, h3, h⟩ := bind_inv h
  obtain ⟨fl, h4, h⟩ := bind_inv h
  obtain ⟨o, h5, h⟩ := bind_inv h
  cases h
  unfold Kwargs.option at h2 h3
  rw [lookup_drop (by decide)] at h2 h3
  refine ⟨u.getD (.str .ignore), options_kind.trans ?_, ?_⟩
  · have : rs.getD false = ((kw.lookup "reset").map Arg.truthy).getD false := by
      cases hl : kw.lookup "reset" with
      | none => rw [hl] at h2; cases h2; rfl
      | some a =>
        rw [hl] at h2 hr
        split at h2
        case h_1 h => cases h
        case h_2 h => cases h; exact absurd rfl hr
        case h_3 _ h => cases h; cases h2; rfl
    rw [← this]
    rfl
  · cases hl : kw.lookup "unmapped" with
    | none => rw [hl] at h3; cases h3; exact .nothing
    | some a =>
      rw [hl] at h3 hu
      split at h3
      case h_1 h => cases h
      case h_2 h => cases h; exact absurd rfl hu
      case h_3 _ h =>
        cases h
        cases hx : readUnmapped a with
        | error e => rw [hx] at h3; cases h3
        | ok x => rw [hx] at h3; cases h3; exact readUnmapped_spec hx

/-- C77 for `PolymorphicSubForm`: the type field, and `reset` and `unmapped` as for `SubForm`. -/
theorem C77_poly {probe : Nat} {types : List (Val × Nat)} {tf : Field} (h : Field.newPoly probe types (.field tf :: args) kw = .ok f) :
    ∃ u, f.kind = .poly tf probe types (((kw.lookup "reset").map Arg.truthy).getD false) u ∧
      UnmappedAs (kw.lookup "unmapped") u := by
  obtain ⟨u, h1, h⟩ := bind_inv h
  refine ⟨u, new_kind h, ?_⟩
  cases hl : kw.lookup "unmapped" with
  | none => rw [hl] at h1; cases h1; exact .nothing
  | some a => rw [hl] at h1; exact readUnmapped_spec h1

/-- C77, the fields of a container: an item field, key field or value field without a source of its own is mapped at the place
of the item; one with a source looks there for it. -/
theorem C77_items {m : Maker} (hm : m ≠ .group) (hd : m.Deep kw) (h : m.make args kw = .ok f) (p : P) :
    (SourceGiven (m.rest args) kw .NONE → (f.attach none).place I p = .ok p) ∧
    (∀ v, SourceGiven (m.rest args) kw v → noSrc v = false → (f.attach none).place I p = I.append p v) := by
  have hs := C76_source hm hd h
  have hg := (made_kind hm h).group
  have hpl : (f.attach none).place I p = if noSrc (f.attach none).core.src then .ok p
      else I.append p (f.attach none).core.src := by
    unfold Field.place
    rw [attach_kind]
    cases hk : f.kind <;> first | rfl | exact absurd hk (hg _)
  have hsrc : (f.attach none).core.src = if f.core.src.isNONE then .none else f.core.src := rfl
  refine ⟨fun h' => ?_, fun v h' hv => ?_⟩
  · rw [hpl, hsrc, ← h'.unique hs]
    rfl
  · rw [hpl, hsrc, ← h'.unique hs]
    have : v.isNONE = false := by
      unfold noSrc at hv
      cases h : v.isNONE
      · rfl
      · rw [h, Bool.or_true] at hv; cases hv
    rw [this]
    simp only [Bool.false_eq_true, if_false, hv]

end Pilo
