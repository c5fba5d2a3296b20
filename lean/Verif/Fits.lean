import Verif.Api
import Verif.Closed
import Verif.Props.Fields

/-!
# Values that fit their field

What it means for a value to belong in a field (`Fits`), and that every run of the evaluator leaves only such values in
the forms (`OK`).
-/

namespace Pilo

/-! ## Specification -/

/-- The values of a primitive type. -/
def PTy.Has : PTy → Val → Prop
  | .str, v => ∃ x, v = .str x
  | .int, v => ∃ i, v = .int i
  | .float, v => ∃ x, v = .float x
  | .bool, v => ∃ b, v = .bool b
  | .auto, _ => True

/-- The values the built-in field classes without items are for. -/
def Kind.OfType : Kind → Val → Prop
  | .base, _ => True
  | .string _, v => ∃ x, v = .str x
  | .integer _, v => ∃ i, v = .int i
  | .float _, v => ∃ x, v = .float x
  | .decimal _, v => ∃ x, v = .decimal x
  | .boolean, v => ∃ b, v = .bool b
  | .date _, v => ∃ d, v = .ext .date d ∨ v = .ext .datetime d
  | .time _, v => ∃ d, v = .ext .time d ∨ v = .ext .structTime d
  | .datetime _, v => ∃ d, v = .ext .datetime d
  | .uuid, v => ∃ n, v = .ext .uuid n
  | .code, _ => True
  | _, _ => False

/-- A number is not outside the bounds that can be compared with it. -/
def NumCfg.Admits (c : NumCfg) (v : Val) : Prop := ∀ x, v.num? = some x → x ≠ .nan →
  (∀ lo y, c.min = some lo → lo.num? = some y → y ≠ .nan → y.Le x) ∧
  (∀ hi y, c.max = some hi → hi.num? = some y → y ≠ .nan → x.Le y)

/-- A date is not outside the bounds of its own type. -/
def DateCfg.Admits (c : DateCfg) (v : Val) : Prop := ∀ t d, v = .ext t d →
  (∀ a, c.after = some (.ext t a) → a ≤ d) ∧ (∀ b, c.before = some (.ext t b) → d ≤ b)

/-- The value satisfies what is asked of values of the class. -/
def Kind.Admits (k : Kind) (ts : List (Val × Val)) (v : Val) : Prop :=
  match k with
  | .string c => ∀ x, v = .str x → StringOK (c.widen ts) x
  | .integer c => c.Admits v
  | .float c => c.Admits v
  | .decimal c => c.Admits v
  | .date c => c.Admits v
  | .time c => c.Admits v
  | .datetime c => c.Admits v
  | .list _ lo hi _ => ∀ xs, v = .list xs → (∀ n, lo = some n → n ≤ xs.length) ∧ (∀ n, hi = some n → xs.length ≤ n)
  | .dict _ _ _ req mx => ∀ kvs, v = .dict kvs →
      (∀ ks, req = .set ks → ∀ k ∈ ks, ∃ p ∈ kvs, k.pyEq p.1 = true) ∧ (∀ n, mx = some n → n ≠ 0 → kvs.length ≤ n)
  | _ => True

/-- The value satisfies the constraints of the field. -/
structure Field.Meets (f : Field) (v : Val) : Prop where
  kept : ∀ x ∈ f.core.ignores, v.pyEq x = false
  nullable : v = .none → f.core.nullable.truthy = true
  admits : f.kind.Admits f.core.translations v

/-- The value is what the field has by default. -/
inductive Defaults (L : Lib) (f : Field) : Val → Prop where
  | value {v : Val} (h : f.core.default = .value v) : Defaults L f v
  | call {id : Nat} {v : Val} (h : f.core.default = .value (.func id)) (hc : L.call id = .ok v) : Defaults L f v
  /-- user code -/
  | hook {h : Hook Prog} {v : Val} (hd : f.core.default = .hook h) : Defaults L f v
  | callable {p : Prog} {v : Val} (h : f.core.default = .callable p) : Defaults L f v

/-- User code decides what the value is. -/
def Field.Custom (f : Field) : Prop := f.core.compute ≠ none ∨ f.core.parse ≠ none ∨ f.core.munge ≠ none

/-- The value belongs in the field, given the forms there are. -/
inductive Fits (L : Lib) (forms : List FormObj) : Field → Val → Prop where
  | default {f : Field} {v : Val} (h : Defaults L f v) : Fits L forms f v
  | null {f : Field} (m : f.Meets .none) : Fits L forms f .none
  | custom {f : Field} {v : Val} (h : f.Custom) (m : f.Meets v) : Fits L forms f v
  | translated {f : Field} {v : Val} (h : v ∈ f.core.translations.map Prod.snd) (m : f.Meets v) : Fits L forms f v
  | leaf {f : Field} {v : Val} (h : f.kind.OfType v) (m : f.Meets v) : Fits L forms f v
  | list {f g : Field} {lo hi : Option Nat} {a : Bool} {xs : List Val} (h : f.kind = .list g lo hi a)
      (hx : ∀ x ∈ xs, Fits L forms g x) (m : f.Meets (.list xs)) : Fits L forms f (.list xs)
  /-- fields whose item was left out are skipped -/
  | tuple {f : Field} {fs gs : List Field} {xs : List Val} (h : f.kind = .tuple fs) (hs : gs.Sublist fs)
      (hl : gs.length = xs.length) (hx : ∀ (i : Nat) g x, gs[i]? = some g → xs[i]? = some x → Fits L forms g x)
      (m : f.Meets (.tuple xs)) : Fits L forms f (.tuple xs)
  /-- a key is not parsed -/
  | dict {f kf vf : Field} {kfl : Option (Hook (Val → Prog))} {req : Required} {mx : Option Nat}
      {kvs : List (Val × Val)} (h : f.kind = .dict kf vf kfl req mx)
      (hk : ∀ p ∈ kvs, Defaults L kf p.1 ∨ kf.Meets p.1) (hv : ∀ p ∈ kvs, Fits L forms vf p.2)
      (m : f.Meets (.dict kvs)) : Fits L forms f (.dict kvs)
  | form {f : Field} {cls : Nat} {r : Bool} {u : Unmapped} {id : Nat} {o : FormObj} (h : f.kind = .subform cls r u)
      (ho : forms[id]? = some o) (hc : o.cls = cls) (m : f.Meets (.form id)) : Fits L forms f (.form id)
  | poly {f tf : Field} {pc : Nat} {ts : List (Val × Nat)} {r : Bool} {u : Unmapped} {id : Nat} {o : FormObj}
      (h : f.kind = .poly tf pc ts r u) (ho : forms[id]? = some o) (hc : o.cls ∈ ts.map Prod.snd)
      (m : f.Meets (.form id)) : Fits L forms f (.form id)
  /-- triples of key, capture and value of one of the fields -/
  | group {f : Field} {gs : List (GSrc × Field)} {ts : List (Val × Val × Val × Field)} (h : f.kind = .group gs)
      (hg : ∀ t ∈ ts, ∃ src, (src, t.2.2.2) ∈ gs) (hx : ∀ t ∈ ts, Fits L forms t.2.2.2 t.2.2.1)
      (m : f.Meets (.list (ts.map fun t => .tuple [t.1, t.2.1, t.2.2.1]))) :
      Fits L forms f (.list (ts.map fun t => .tuple [t.1, t.2.1, t.2.2.1]))

/-- In every form, what is stored under the name of a field belongs in a field of that name. -/
def Forms.Fit (L : Lib) (C : Classes) (forms : List FormObj) : Prop :=
  ∀ (id : Nat) (o : FormObj), forms[id]? = some o → ∀ n v, dictGet? o.items (.str n) = some v →
    (∃ g ∈ (C o.cls).fields, g.name = some n) → ∃ g ∈ (C o.cls).fields, g.name = some n ∧ Fits L forms g v

/-- No form has gone and none has changed its class. -/
def Grows (a b : List FormObj) : Prop := ∀ (id : Nat) (o : FormObj), a[id]? = some o → ∃ o', b[id]? = some o' ∧ o'.cls = o.cls

/-! ## Elementary facts -/

theorem Grows.refl (a : List FormObj) : Grows a a := fun _ o h => ⟨o, h, rfl⟩

theorem Grows.trans {a b c : List FormObj} (h : Grows a b) (h' : Grows b c) : Grows a c := fun id o ho =>
  have ⟨o1, h1, e1⟩ := h id o ho
  have ⟨o2, h2, e2⟩ := h' id o1 h1
  ⟨o2, h2, e2.trans e1⟩

variable {L : Lib} {C : Classes}

theorem Fits.grow {a b : List FormObj} (hg : Grows a b) {f : Field} {v : Val} (h : Fits L a f v) : Fits L b f v := by
  induction h with
  | default h => exact .default h
  | null m => exact .null m
  | custom h m => exact .custom h m
  | translated h m => exact .translated h m
  | leaf h m => exact .leaf h m
  | list h _ m ih => exact .list h ih m
  | tuple h hs hl _ m ih => exact .tuple h hs hl ih m
  | dict h hk _ m ih => exact .dict h hk ih m
  | form h ho hc m =>
    obtain ⟨o', h', e⟩ := hg _ _ ho
    exact .form h h' (e.trans hc) m
  | poly h ho hc m =>
    obtain ⟨o', h', e⟩ := hg _ _ ho
    exact .poly h h' (e ▸ hc) m
  | group h hg _ m ih => exact .group h hg ih m

theorem Fits.meets {a : List FormObj} {f : Field} {v : Val} (h : Fits L a f v) : Defaults L f v ∨ f.Meets v := by
  cases h <;> first | (left; assumption) | (right; assumption)

/-! ## Runs -/

/-- Paths of sources whose primitives have the type asked for: `K` is kept by every operation. -/
structure TypedPath {P : Type} (I : PathOps P) (K : P → Prop) : Prop where
  append : ∀ {p k q}, K p → I.append p k = .ok q → K q
  pop : ∀ {p q}, K p → I.pop p = .ok q → K q
  value : ∀ {p}, K p → K (I.value p).2
  exists_ : ∀ {p}, K p → K (I.exists_ p).2
  isNull : ∀ {p}, K p → K (I.isNull p).2
  mapping : ∀ {p}, K p → K (I.mapping p).2
  sequence : ∀ {p}, K p → K (I.sequence p).2
  primitive : ∀ {p ty}, K p → K (I.primitive ty p).2
  joinPath : ∀ {p q}, K p → I.joinPath p = some (.ok q) → K q
  native : ∀ {v al}, K (I.native v al)
  typed : ∀ {p ty v}, K p → (I.primitive ty p).1 = .ok v → ty.Has v

section
variable {P : Type} {α β : Type} {I : PathOps P} (L) (C) (K : P → Prop)

/-- Every form holds only what belongs there, and every path is of the right kind. -/
structure OK (s : St P) : Prop where
  forms : Forms.Fit L C s.forms
  paths : ∀ p ∈ s.paths, K p

/-- From the state `s`, the run keeps `OK` and what it returns satisfies `Q`. -/
def Good (s : St P) (m : M P α) (Q : List FormObj → α → Prop) : Prop :=
  OK L C K s → OK L C K (m s).2 ∧ Grows s.forms (m s).2.forms ∧ ∀ a, (m s).1 = .ok a → Q (m s).2.forms a

variable {L C K} {s : St P} {Q : List FormObj → α → Prop} {R : List FormObj → β → Prop} {m : M P α}

theorem Good.weaken {Q' : List FormObj → α → Prop} (h : Good L C K s m Q) (hq : ∀ fs a, Q fs a → Q' fs a) :
    Good L C K s m Q' := fun hs =>
  have ⟨h1, h2, h3⟩ := h hs
  ⟨h1, h2, fun a ha => hq _ _ (h3 a ha)⟩

theorem Good.any (h : Good L C K s m Q) : Good L C K s m fun _ _ => True := h.weaken fun _ _ _ => trivial

theorem Good.pure {a : α} (h : Q s.forms a) : Good L C K s (M.pure a) Q := fun hs =>
  ⟨hs, Grows.refl _, fun _ ha => by cases ha; exact h⟩

theorem Good.raise {e : Exc} : Good L C K s (M.raise e) Q := fun hs => ⟨hs, Grows.refl _, fun _ ha => by cases ha⟩

theorem Good.ofExcept {x : Except Exc α} (h : ∀ a, x = .ok a → Q s.forms a) : Good L C K s (M.ofExcept x) Q := fun hs =>
  ⟨hs, Grows.refl _, h⟩

theorem Good.bind {k : α → M P β} (h : Good L C K s m Q)
    (hk : ∀ a s', Grows s.forms s'.forms → Q s'.forms a → Good L C K s' (k a) R) : Good L C K s (m >>= k) R := by
  intro hs
  obtain ⟨h1, h2, h3⟩ := h hs
  rcases hm : m s with ⟨r, s'⟩
  rw [hm] at h1 h2 h3
  cases r with
  | error e => rw [M.bind_error hm]; exact ⟨h1, h2, fun _ ha => by cases ha⟩
  | ok a =>
    rw [M.bind_ok hm]
    obtain ⟨k1, k2, k3⟩ := hk a s' h2 (h3 a rfl) h1
    exact ⟨k1, h2.trans k2, k3⟩

theorem Good.tryCatch {h : Exc → M P α} (hm : Good L C K s m Q)
    (hh : ∀ e s', Grows s.forms s'.forms → Good L C K s' (h e) Q) : Good L C K s (M.tryCatch m h) Q := by
  intro hs
  obtain ⟨h1, h2, h3⟩ := hm hs
  unfold M.tryCatch
  rcases hr : m s with ⟨r, s'⟩
  rw [hr] at h1 h2 h3
  cases r with
  | ok a => exact ⟨h1, h2, h3⟩
  | error e =>
    obtain ⟨k1, k2, k3⟩ := hh e s' h2 h1
    exact ⟨k1, h2.trans k2, k3⟩

/-- What is left alone: the forms. -/
def Aside (m : M P α) : Prop := ∀ s, (m s).2.forms = s.forms ∧ ((∀ p ∈ s.paths, K p) → ∀ p ∈ (m s).2.paths, K p)

theorem Aside.good (h : Aside (K := K) m) (hq : ∀ a, (m s).1 = .ok a → Q s.forms a) : Good L C K s m Q := fun hs =>
  have ⟨h1, h2⟩ := h s
  ⟨⟨h1 ▸ hs.forms, h2 hs.paths⟩, h1 ▸ Grows.refl _, fun a ha => h1 ▸ hq a ha⟩

theorem Aside.good' (h : Aside (K := K) m) : Good L C K s m fun _ _ => True := h.good fun _ _ => trivial

theorem Aside.pure (a : α) : Aside (K := K) (M.pure a : M P α) := fun _ => ⟨rfl, id⟩
theorem Aside.raise (e : Exc) : Aside (K := K) (M.raise e : M P α) := fun _ => ⟨rfl, id⟩
theorem Aside.ofExcept (x : Except Exc α) : Aside (K := K) (M.ofExcept x : M P α) := fun _ => ⟨rfl, id⟩

theorem Aside.bind {k : α → M P β} (h : Aside (K := K) m) (hk : ∀ a, Aside (K := K) (k a)) :
    Aside (K := K) (m >>= k) := by
  intro s
  obtain ⟨h1, h2⟩ := h s
  rcases hm : m s with ⟨r, s'⟩
  rw [hm] at h1 h2
  cases r with
  | error e => rw [M.bind_error hm]; exact ⟨h1, h2⟩
  | ok a =>
    rw [M.bind_ok hm]
    obtain ⟨k1, k2⟩ := hk a s'
    exact ⟨k1.trans h1, fun hp => k2 (h2 hp)⟩

theorem Aside.ctxGet (proj : Frame → Option α) (n : String) : Aside (K := K) (ctxGet proj n : M P α) := by
  intro s
  unfold Pilo.ctxGet
  split <;> exact ⟨rfl, id⟩

theorem Aside.ctxGet? (proj : Frame → Option α) : Aside (K := K) (ctxGet? proj : M P (Option α)) := fun _ => ⟨rfl, id⟩

theorem Aside.newErrs (b : Bool) : Aside (K := K) (newErrs b : M P Nat) := fun _ => ⟨rfl, id⟩
theorem Aside.errItems (r : Nat) : Aside (K := K) (errItems r : M P _) := fun _ => ⟨rfl, id⟩
theorem Aside.errExtend (r : Nat) (es : List Err) : Aside (K := K) (errExtend r es : M P Unit) := fun _ => ⟨rfl, id⟩
theorem Aside.formItems (i : Nat) : Aside (K := K) (formItems i : M P _) := fun _ => ⟨rfl, id⟩

theorem Aside.formCls (i : Nat) : Aside (K := K) (formCls i : M P _) := by
  intro s
  unfold Pilo.formCls
  split <;> exact ⟨rfl, id⟩

theorem Aside.onPath {f : P → Except Exc α × P} (h : ∀ {p}, K p → K (f p).2) : Aside (K := K) (onPath f) := by
  intro s
  unfold Pilo.onPath
  split
  · exact ⟨rfl, id⟩
  · exact ⟨rfl, id⟩
  · split
    · exact ⟨rfl, id⟩
    · rename_i p hp
      refine ⟨rfl, fun hk q hq => ?_⟩
      rcases List.mem_or_eq_of_mem_set hq with h' | rfl
      · exact hk q h'
      · exact h (hk p (List.mem_of_getElem? hp))

theorem Aside.stackAppend (f : Frame) : Aside (K := K) (stackAppend f : M P Unit) := fun _ => ⟨rfl, id⟩
theorem Aside.pushVars (f : Frame) : Aside (K := K) (pushVars f : M P Unit) := fun _ => ⟨rfl, id⟩
theorem Aside.pushReset : Aside (K := K) (pushReset : M P Unit) := fun _ => ⟨rfl, id⟩

variable (T : TypedPath I K)
include T

theorem Aside.pushKey (k : Val) (f : Frame) : Aside (K := K) (pushKey I k f) :=
  Aside.bind (Aside.onPath fun {p} hp => by
    unfold pathAppend
    split
    · rename_i q hq; exact T.append hp hq
    · exact hp) fun _ => Aside.stackAppend _

omit T in
theorem Aside.pushSource {mk : Except Exc P} (h : ∀ p, mk = .ok p → K p) (f : Frame) :
    Aside (K := K) (pushSource mk f) := by
  cases mk with
  | error e => exact fun _ => ⟨rfl, id⟩
  | ok p =>
    refine fun s => ⟨rfl, fun hk q hq => ?_⟩
    rcases List.mem_append.1 (show q ∈ s.paths ++ [p] from hq) with h' | h'
    · exact hk q h'
    · cases List.mem_singleton.1 h'; exact h p rfl

theorem Aside.pathPop : Aside (K := K) (Pilo.onPath (Pilo.pathPop I)) := Aside.onPath fun {p} hp => by
  unfold Pilo.pathPop
  split
  · rename_i q hq; exact T.pop hp hq
  · exact hp

theorem Aside.restore : Aside (K := K) (restore I) := by
  intro s
  unfold Pilo.restore
  split
  · exact ⟨rfl, id⟩
  · split
    · exact Aside.pathPop T _
    · exact ⟨rfl, id⟩

omit T in
theorem Good.tryFinally {fin : M P Unit} (hm : Good L C K s m Q) (hf : Aside (K := K) fin) :
    Good L C K s (M.tryFinally m fin) Q := by
  intro hs
  obtain ⟨h1, h2, h3⟩ := hm hs
  unfold M.tryFinally
  rcases hr : m s with ⟨r, s'⟩
  rw [hr] at h1 h2 h3
  obtain ⟨k1, k2⟩ := hf s'
  rcases hf' : fin s' with ⟨r', s''⟩
  rw [hf'] at k1 k2
  dsimp only at k1 k2 h1 h2 h3 ⊢
  rw [hf']
  have hok : OK L C K s'' := ⟨k1 ▸ h1.forms, k2 h1.paths⟩
  cases r' with
  | ok u => exact ⟨hok, k1 ▸ h2, fun a ha => k1 ▸ h3 a ha⟩
  | error e => exact ⟨hok, k1 ▸ h2, fun a ha => by cases ha⟩

theorem Good.withPush {push : M P Unit} (hp : Aside (K := K) push)
    (hm : ∀ s', s'.forms = s.forms → Good L C K s' m Q) : Good L C K s (withPush I push m) Q := by
  refine Good.bind (Q := fun fs _ => fs = s.forms) (hp.good fun _ _ => rfl) fun _ s' _ hf => ?_
  exact Good.tryFinally (hm s' hf) (Aside.restore T)

theorem Aside.repeatPop : ∀ n, Aside (K := K) (repeatM (Pilo.onPath (Pilo.pathPop I)) n) := by
  intro n
  induction n with
  | zero => exact Aside.pure ()
  | succ n ih => exact Aside.bind (Aside.pathPop T) fun _ => ih

theorem Aside.appendKeys : ∀ ks, Aside (K := K) (appendKeys I ks) := by
  intro ks
  induction ks with
  | nil => exact Aside.pure ()
  | cons k ks ih =>
    refine Aside.bind (Aside.onPath fun {p} hp => ?_) fun _ => ih
    unfold pathAppend
    split
    · rename_i q hq; exact T.append hp hq
    · exact hp

omit T in
theorem Aside.whenSrcPath {b : M P Unit} (h : Aside (K := K) b) : Aside (K := K) (whenSrcPath b) := by
  unfold Pilo.whenSrcPath
  refine Aside.bind (Aside.ctxGet _ _) fun o => ?_
  cases o with
  | none => exact Aside.pure ()
  | some r => exact h

theorem Aside.rewind (stop : Frame → Bool) : Aside (K := K) (rewind I stop) := by
  intro s
  unfold Pilo.rewind
  split
  · exact ⟨rfl, id⟩
  · exact Aside.bind (Aside.whenSrcPath (Aside.repeatPop T _)) (fun _ => Aside.pure _) _

theorem Aside.restoreFrames (fs : List Frame) : Aside (K := K) (restoreFrames I fs) := by
  unfold Pilo.restoreFrames
  split
  · exact Aside.pure ()
  · exact Aside.bind (Aside.whenSrcPath (Aside.appendKeys T _)) fun _ _ => ⟨rfl, id⟩

theorem Good.withRewind {stop : Frame → Bool} (hm : ∀ s', s'.forms = s.forms → Good L C K s' m Q) :
    Good L C K s (withRewind I stop m) Q := by
  refine Good.bind (Q := fun fs _ => fs = s.forms) ((Aside.rewind T stop).good fun _ _ => rfl) fun _ s' _ hf => ?_
  exact Good.tryFinally (hm s' hf) (Aside.restoreFrames T _)

omit T in
theorem Aside.report (kind : ErrKind) : Aside (K := K) (report I kind) := by
  unfold Pilo.report
  refine Aside.bind (Aside.ctxGet _ _) fun _ => Aside.bind (Aside.ctxGet _ _) fun _ => Aside.bind (fun s => ?_) fun x => ?_
  · unfold pathText
    repeat' split
    all_goals exact ⟨rfl, id⟩
  · obtain ⟨text, pr⟩ := x
    refine Aside.bind (Aside.errExtend _ _) fun _ => Aside.bind (fun _ => ⟨rfl, id⟩) fun st => ?_
    split
    · split
      · exact Aside.raise _
      · exact Aside.pure ()
    · exact Aside.pure ()

theorem Good.primitive (ty : PTy) : Good L C K s (readPath (I.primitive ty)) fun _ v => ty.Has v := by
  intro hs
  have ha : Aside (K := K) (readPath (I.primitive ty)) := Aside.onPath fun hp => T.primitive hp
  refine ha.good (Q := fun _ v => ty.Has v) (fun a h => ?_) hs
  unfold readPath onPath at h
  split at h
  · cases h
  · cases h
  · split at h
    · cases h
    · rename_i p hp
      exact T.typed (hs.paths p (List.mem_of_getElem? hp)) h

end
end Pilo
