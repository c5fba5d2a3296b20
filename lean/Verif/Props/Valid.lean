import Verif.FitsEval
import Verif.Source.Lawful
import Verif.Demo

/-!
# Forms hold only valid values (C68)

Whatever is mapped, read and deleted in whatever order: what a form holds under the name of one of its fields belongs in
that field.
-/

namespace Pilo

/-! ## Sources without unions -/

/-- Not a union. -/
def BPath.Plain : BPath → Prop
  | .simple _ => True
  | .union _ => False

/-- No union is involved. -/
def Path.Plain : Path → Prop
  | .base p => p.Plain
  | .mount p => p.dne.Plain ∧ ∀ x ∈ p.paths, x.2.Plain

theorem parseNative_has {L : Lib} {ty : PTy} {v w : Val} (h : parseNative L ty v = .ok w) : ty.Has w := by
  have flt : ∀ i w, floatInt L i = .ok w → ∃ x, w = .float x := by
    intro i w h
    unfold floatInt at h
    split at h
    · cases h; exact ⟨_, rfl⟩
    · cases h
  cases ty with
  | auto => trivial
  | str =>
    dsimp only [parseNative] at h
    unfold asString at h
    split at h <;> cases h; exact ⟨_, rfl⟩
  | int =>
    dsimp only [parseNative] at h
    unfold asInt at h
    split at h
    · cases h; exact ⟨_, rfl⟩
    · split at h <;> cases h; exact ⟨_, rfl⟩
    · split at h <;> cases h; exact ⟨_, rfl⟩
    · cases h
  | float =>
    dsimp only [parseNative] at h
    unfold asFloat at h
    split at h
    · cases h; exact ⟨_, rfl⟩
    · exact flt _ _ h
    · exact flt _ _ h
    · split at h <;> cases h; exact ⟨_, rfl⟩
    · cases h
  | bool =>
    dsimp only [parseNative] at h
    unfold asBool at h
    split at h
    · cases h; exact ⟨_, rfl⟩
    · split at h <;> cases h; exact ⟨_, rfl⟩
    · split at h
      · cases h; exact ⟨_, rfl⟩
      · split at h <;> cases h; exact ⟨_, rfl⟩
    · cases h

theorem parseJson_has {L : Lib} {b : Bool} {ty : PTy} {v w : Val} (h : parseJson L b ty v = .ok w) : ty.Has w := by
  have flt : ∀ i w, floatInt L i = .ok w → ∃ x, w = .float x := by
    intro i w h
    unfold floatInt at h
    split at h
    · cases h; exact ⟨_, rfl⟩
    · cases h
  cases ty with
  | auto => trivial
  | str =>
    dsimp only [parseJson] at h
    unfold jsonString at h
    split at h
    · cases h; exact ⟨_, rfl⟩
    · split at h <;> cases h; exact ⟨_, rfl⟩
  | int =>
    dsimp only [parseJson] at h
    unfold jsonInt at h
    split at h
    · cases h; exact ⟨_, rfl⟩
    · split at h <;> cases h; exact ⟨_, rfl⟩
    · split at h
      · split at h <;> cases h; exact ⟨_, rfl⟩
      · cases h
    · cases h
  | float =>
    dsimp only [parseJson] at h
    unfold jsonFloat at h
    split at h
    · cases h; exact ⟨_, rfl⟩
    · exact flt _ _ h
    · exact flt _ _ h
    · split at h
      · split at h <;> cases h; exact ⟨_, rfl⟩
      · cases h
    · cases h
  | bool =>
    dsimp only [parseJson] at h
    unfold jsonBool at h
    split at h
    · cases h; exact ⟨_, rfl⟩
    · split at h <;> cases h; exact ⟨_, rfl⟩
    · cases h

theorem cfgPrimitive_has {L : Lib} {cfg : ConfigCfg} {ks : List Val} {ty : PTy} {c : CfgVal} {w : Val}
    (h : SPath.cfgPrimitive L cfg ks ty c = .ok w) : ty.Has w := by
  unfold SPath.cfgPrimitive at h
  split at h
  · cases h
  · rename_i v hv
    have hv := parseNative_has hv
    split at h
    · rename_i s
      have str : ∀ t, ty.Has (.str t) := by
        intro t
        cases ty with
        | str => exact ⟨t, rfl⟩
        | auto => trivial
        | int => obtain ⟨_, h⟩ := hv; cases h
        | float => obtain ⟨_, h⟩ := hv; cases h
        | bool => obtain ⟨_, h⟩ := hv; cases h
      split at h
      · split at h
        · cases h
        · cases h; exact str _
      · cases h; exact hv
    · cases h; exact hv

theorem SPath.primitive_has {L : Lib} {ty : PTy} {p : SPath} {w : Val} (h : (SPath.primitive L ty p).1 = .ok w) :
    ty.Has w := by
  unfold SPath.primitive SPath.withValue at h
  split at h
  all_goals
    dsimp only at h
    split at h
    · first | exact parseNative_has h | exact parseJson_has h | exact cfgPrimitive_has h
    · cases h

theorem BPath.Plain.read {α : Type} {p : BPath} (hp : p.Plain) {fs : SPath → Except Exc α × SPath}
    {fu : UPath → Except Exc α × UPath} : (p.read fs fu).2.Plain := by
  cases p with
  | simple p => trivial
  | union p => exact hp.elim

theorem BPath.primitive_has {L : Lib} {ty : PTy} {p : BPath} (hp : p.Plain) {w : Val}
    (h : (p.primitive L ty).1 = .ok w) : ty.Has w := by
  cases p with
  | simple p => exact SPath.primitive_has (p := p) h
  | union p => exact hp.elim

theorem MPath.plain_sub {p : MPath} (hp : (Path.mount p).Plain) (k : Val) : (p.sub k).Plain := by
  unfold MPath.sub
  split
  · split
    · rename_i q hq; exact hp.2 q (List.mem_of_getElem? hq)
    · exact hp.1
  · exact hp.1

theorem MPath.plain_setSub {p : MPath} (hp : (Path.mount p).Plain) (k : Val) {q : BPath} (hq : q.Plain) :
    (Path.mount (p.setSub k q)).Plain := by
  unfold MPath.setSub
  split
  · refine ⟨hp.1, fun x hx => ?_⟩
    obtain ⟨i, hi⟩ := List.getElem?_of_mem hx
    rw [List.getElem?_modify] at hi
    rename_i j _
    cases ho : p.paths[i]? with
    | none => rw [ho] at hi; cases hi
    | some y =>
      rw [ho] at hi
      by_cases e : j = i
      · simp [e] at hi; subst hi; exact hq
      · simp [e] at hi; subst hi; exact hp.2 _ (List.mem_of_getElem? ho)
  · exact ⟨hq, hp.2⟩

theorem MPath.plain_onSub {α : Type} {p : MPath} (hp : (Path.mount p).Plain) (k : Val) {f : BPath → Except Exc α × BPath}
    (hf : ∀ b : BPath, b.Plain → (f b).2.Plain) : (Path.mount (p.onSub k f).2).Plain :=
  MPath.plain_setSub hp k (hf _ (MPath.plain_sub hp k))

/-- The paths of all sources but unions. -/
theorem Path.typed (L : Lib) : TypedPath (Path.ops L) Path.Plain where
  append := by
    intro p k q hp h
    cases p with
    | base p =>
      cases h
      cases p with
      | simple p => trivial
      | union p => exact hp.elim
    | mount p =>
      cases ha : p.append k with
      | error e => simp [Path.ops, ha] at h
      | ok m =>
        simp [Path.ops, ha] at h
        subst h
        unfold MPath.append at ha
        split at ha
        · split at ha <;> cases ha; exact hp
        · cases ha
          rename_i k' _
          refine MPath.plain_setSub hp _ ?_
          have := MPath.plain_sub hp k'
          cases hs : p.sub k' with
          | simple _ => trivial
          | union _ => rw [hs] at this; exact this.elim
  pop := by
    intro p q hp h
    have bp : ∀ b c : BPath, b.Plain → b.pop = .ok c → c.Plain := by
      intro b c hb hc
      cases b with
      | simple b =>
        dsimp only [BPath.pop] at hc
        split at hc <;> cases hc; trivial
      | union b => exact hb.elim
    cases p with
    | base p =>
      cases ha : p.pop with
      | error e => simp [Path.ops, ha] at h
      | ok m => simp [Path.ops, ha] at h; subst h; exact bp _ _ hp ha
    | mount p =>
      cases ha : p.pop with
      | error e => simp [Path.ops, ha] at h
      | ok m =>
        simp [Path.ops, ha] at h
        subst h
        unfold MPath.pop at ha
        split at ha
        · cases ha
        · split at ha
          · cases ha; exact hp
          · split at ha
            · cases ha
              rename_i hq
              exact MPath.plain_setSub hp _ (bp _ _ (MPath.plain_sub hp _) hq)
            · cases ha
  value := by
    intro p hp
    cases p with
    | base p => exact BPath.Plain.read (p := p) hp
    | mount p =>
      show (Path.mount (MPath.value L p).2).Plain
      unfold MPath.value
      split
      · exact hp
      · exact MPath.plain_onSub hp _ fun b hb => hb.read
  exists_ := by
    intro p hp
    cases p with
    | base p => exact BPath.Plain.read (p := p) hp
    | mount p =>
      show (Path.mount (MPath.exists_ L p).2).Plain
      unfold MPath.exists_
      split
      · exact hp
      · exact MPath.plain_onSub hp _ fun b hb => hb.read
  isNull := by
    intro p hp
    cases p with
    | base p => exact BPath.Plain.read (p := p) hp
    | mount p =>
      show (Path.mount (MPath.isNull L p).2).Plain
      unfold MPath.isNull
      split
      · exact hp
      · rename_i m _
        have := MPath.plain_onSub hp m (f := BPath.value L) fun b hb => hb.read
        split <;> (rename_i h; rw [h] at this; exact this)
  mapping := by
    intro p hp
    have sk : ∀ r : Except Exc KeysView × Path, r.2.Plain → (Path.someKeys r).2.Plain := by
      intro r hr
      obtain ⟨x, y⟩ := r
      cases x <;> exact hr
    apply sk
    cases p with
    | base p => exact BPath.Plain.read (p := p) hp
    | mount p =>
      show (Path.mount (MPath.mapping L p).2).Plain
      unfold MPath.mapping
      split
      · exact hp
      · exact MPath.plain_onSub hp _ fun b hb => hb.read
  sequence := by
    intro p hp
    cases p with
    | base p => exact BPath.Plain.read (p := p) hp
    | mount p =>
      show (Path.mount (MPath.sequence L p).2).Plain
      unfold MPath.sequence
      split
      · exact hp
      · split
        · exact hp
        · exact MPath.plain_onSub hp _ fun b hb => hb.read
  primitive := by
    intro p ty hp
    cases p with
    | base p => exact BPath.Plain.read (p := p) hp
    | mount p =>
      show (Path.mount (MPath.primitive L ty p).2).Plain
      unfold MPath.primitive
      split
      · exact hp
      · split
        · exact hp
        · exact MPath.plain_onSub hp _ fun b hb => hb.read
  joinPath := by
    intro p q hp h
    have bp : ∀ b : BPath, b.Plain → b.joinPath L = none := by
      intro b hb
      cases b with
      | simple b => rfl
      | union b => exact hb.elim
    cases p with
    | base p => simp [Path.ops, bp p hp] at h
    | mount p =>
      cases hm : p.part with
      | none => simp [Path.ops, hm] at h
      | some m => simp [Path.ops, hm, bp _ (MPath.plain_sub hp m)] at h
  native := trivial
  typed := by
    intro p ty v hp h
    cases p with
    | base p => exact BPath.primitive_has (p := p) hp h
    | mount p =>
      have h : (MPath.primitive L ty p).1 = .ok v := h
      unfold MPath.primitive at h
      split at h
      · cases h
      · split at h
        · cases h
        · exact BPath.primitive_has (MPath.plain_sub hp _) h

/-! ## Programs -/

section
variable {P : Type} (I : PathOps P) (L : Lib) (C : Classes) (K : P → Prop)

/-- The call leaves it to `pilo` what goes into forms, and uses the right kind of source. -/
def Call.HandsOff : Call P → Prop
  | .fieldMap f _ => f.All (Pilo.HandsOff C)
  | .formMap _ src _ _ u _ => src.Is K ∧ u.HandsOff
  | .getattr _ _ => True
  | .construct _ src => src.Is K
  | .prog p => p.HandsOff

/-- What the program does to the thread: calls, assignments of values that belong where they are put, and entering and
leaving contexts, in any order. -/
inductive Orderly : St P → Prop where
  | init : Orderly St.init
  | call {s : St P} (n : Nat) (c : Call P) (hc : c.HandsOff C K) (h : Orderly s) : Orderly (c.run I L C n s).2
  | assign {s : St P} {id : Nat} {f : Field} {v : Val} (hd : HasField C s.forms id f) (hv : Fits L s.forms f v)
      (h : Orderly s) : Orderly (formSet id f.key v s).2
  | vars {s : St P} (f : Frame) (h : Orderly s) : Orderly (pushVars f s).2
  | reset {s : St P} (h : Orderly s) : Orderly (pushReset s).2
  | key {s : St P} (k : Val) (f : Frame) (h : Orderly s) : Orderly (pushKey I k f s).2
  | source {s : St P} (p : P) (hp : K p) (f : Frame) (h : Orderly s) : Orderly (pushSource (.ok p) f s).2
  | errors {s : St P} (raising : Bool) (h : Orderly s) : Orderly (newErrs raising s).2
  | leave {s : St P} (h : Orderly s) : Orderly (restore I s).2
  | rewind {s : St P} (stop : Frame → Bool) (h : Orderly s) : Orderly (Pilo.rewind I stop s).2

variable {I L C K}

theorem Good.formInit (T : TypedPath I K) (hC : C.All (HandsOff C)) {s : St P} (n cls : Nat) {src : SrcArg P} (hs : src.Is K) :
    Good L C K s (Form.init I L C n cls src) fun fs id => ∃ o, fs[id]? = some o ∧ o.cls = cls := by
  unfold Form.init
  refine Good.bind (Good.newForm cls) fun id s1 _ hid => ?_
  have hinit : (initSrc I src).Is K := by
    unfold initSrc
    split
    · trivial
    · trivial
    · exact T.native
    · exact hs
  split
  · exact Good.pure hid
  · refine Good.bind (Good.formMap T (Good.mapField T hC n) hC hinit (u := .str .ignore) fun h => by cases h)
      fun e s2 hg2 _ => Good.bind (Aside.errItems e).good' fun es s3 hg3 _ => ?_
    split
    · obtain ⟨o, ho, rfl⟩ := hid
      obtain ⟨o', ho', hc⟩ := (hg2.trans hg3) id o ho
      exact Good.pure ⟨o', ho', hc⟩
    · exact Good.raise

theorem Good.call (T : TypedPath I K) (hC : C.All (HandsOff C)) {s : St P} (n : Nat) {c : Call P} (hc : c.HandsOff C K) :
    Good L C K s (c.run I L C n) fun _ _ => True := by
  have hr : RecGood L C K (Pilo.mapField I L C n) := Good.mapField T hC n
  cases c with
  | fieldMap f v => exact (hr f hc v s).any
  | formMap id src tags reset u raising =>
    exact Good.bind (Good.formMap T hr hC hc.1 hc.2) fun _ _ _ _ => Good.pure trivial
  | getattr id name => exact (Good.formGetattr T hr hC id name).any
  | construct cls src => exact Good.bind (Good.formInit T hC n cls hc) fun _ _ _ _ => Good.pure trivial
  | prog p => exact Good.evalProg T hr hC hc

theorem Orderly.ok (T : TypedPath I K) (hC : C.All (HandsOff C)) {s : St P} (h : Orderly I L C K s) : OK L C K s := by
  have aside : ∀ {α : Type} {m : M P α} {s : St P}, Aside (K := K) m → OK L C K s → OK L C K (m s).2 :=
    fun {_ _ s} ha hs => (ha.good' (L := L) (C := C) (s := s) hs).1
  induction h with
  | init => exact ⟨fun id o h => (by cases h), fun p h => (by cases h)⟩
  | call n c hc _ ih => exact (Good.call T hC n hc ih).1
  | assign hd hv _ ih => exact (Good.formSet hd hv ih).1
  | vars f _ ih => exact aside (Aside.pushVars f) ih
  | reset _ ih => exact aside Aside.pushReset ih
  | key k f _ ih => exact aside (Aside.pushKey T k f) ih
  | source p hp f _ ih => exact aside (Aside.pushSource (fun q h => by cases h; exact hp) f) ih
  | errors r _ ih => exact aside (Aside.newErrs r) ih
  | leave _ ih => exact aside (Aside.restore T) ih
  | rewind stop _ ih => exact aside (Aside.rewind T stop) ih

end

/-! ## Fields nobody interferes with -/

/-- No default, no translations, no user code that makes up values. -/
structure Field.Bare (f : Field) : Prop where
  default : f.core.default = .unset
  translations : f.core.translations = []
  compute : f.core.compute = none
  parse : f.core.parse = none
  munge : f.core.munge = none

theorem Fits.bare {L : Lib} {forms : List FormObj} {f : Field} {v : Val} (hb : f.Bare) (h : Fits L forms f v) :
    f.Meets v ∧ (v = .none ∧ f.core.nullable.truthy = true ∨ Shape L forms f.kind v) := by
  cases h with
  | default h =>
    exfalso
    cases h with
    | value h => rw [hb.default] at h; cases h
    | call h => rw [hb.default] at h; cases h
    | hook h => rw [hb.default] at h; cases h
    | callable h => rw [hb.default] at h; cases h
  | null m => exact ⟨m, .inl ⟨rfl, m.nullable rfl⟩⟩
  | custom h m =>
    exfalso
    rcases h with h | h | h
    · exact h hb.compute
    · exact h hb.parse
    · exact h hb.munge
  | translated h m => rw [hb.translations] at h; cases h
  | leaf h m =>
    refine ⟨m, .inr ?_⟩
    cases hk : f.kind <;> rw [hk] at h <;> first | exact h | exact h.elim
  | list h hx m => exact ⟨m, .inr (by rw [h]; exact ⟨_, rfl, hx⟩)⟩
  | tuple h hs hl hx m => exact ⟨m, .inr (by rw [h]; exact ⟨_, _, rfl, hs, hl, hx⟩)⟩
  | dict h hk hv m => exact ⟨m, .inr (by rw [h]; exact ⟨_, rfl, hk, hv⟩)⟩
  | form h ho hc m => exact ⟨m, .inr (by rw [h]; exact ⟨_, _, rfl, ho, hc⟩)⟩
  | poly h ho hc m => exact ⟨m, .inr (by rw [h]; exact ⟨_, _, rfl, ho, hc⟩)⟩
  | group h hg hx m => exact ⟨m, .inr (by rw [h]; exact ⟨_, rfl, hg, hx⟩)⟩

/-! ## The theorems -/

section
variable {L : Lib} {C : Classes} {s : St Path}

/-- C68, except for what user code stores itself, captured unmapped values and union sources: whatever a program does, a
form holds under the name of each of its fields only what belongs in that field. -/
theorem C68_forms_partial (hC : C.All (HandsOff C)) (h : Orderly (Path.ops L) L C Path.Plain s) {id : Nat} {o : FormObj}
    (ho : s.forms[id]? = some o) {n : String} {v : Val} (hv : dictGet? o.items (.str n) = some v)
    (hn : ∃ f ∈ (C o.cls).fields, f.name = some n) :
    ∃ f ∈ (C o.cls).fields, f.name = some n ∧ Fits L s.forms f v :=
  (h.ok (Path.typed L) hC).forms id o ho n v hv hn

/-- Mapping a field returns a sentinel or what belongs in the field, at any point of the program. -/
theorem C68_field_partial (hC : C.All (HandsOff C)) (h : Orderly (Path.ops L) L C Path.Plain s) {f : Field}
    (hf : f.All (HandsOff C)) {n : Nat} {w : Val} (hw : (mapField (Path.ops L) L C n f .NONE s).1 = .ok w) :
    w.isIgnore = true ∨ Fits L (mapField (Path.ops L) L C n f .NONE s).2.forms f w :=
  ((Good.mapField (Path.typed L) hC n f hf .NONE s (h.ok (Path.typed L) hC)).2.2 w hw).imp_right fun h => h.2 rfl

/-- Mapping a field with a given value returns a sentinel, the default, or a value that meets the constraints. -/
theorem C68_given_partial (hC : C.All (HandsOff C)) (h : Orderly (Path.ops L) L C Path.Plain s) {f : Field}
    (hf : f.All (HandsOff C)) {n : Nat} {v w : Val} (hw : (mapField (Path.ops L) L C n f v s).1 = .ok w) :
    w.isIgnore = true ∨ Defaults L f w ∨ f.Meets w :=
  ((Good.mapField (Path.typed L) hC n f hf v s (h.ok (Path.typed L) hC)).2.2 w hw).imp_right fun h => h.1

/-- Reading an attribute gives what belongs in a field of that name (or a sentinel, when a sentinel is what a form on
the way of being mapped has). -/
theorem C68_getattr_partial (hC : C.All (HandsOff C)) (h : Orderly (Path.ops L) L C Path.Plain s) {id n : Nat}
    {name : String} {w : Val} (hw : (Form.getattr (Path.ops L) L C n id name s).1 = .ok w) :
    w.isIgnore = true ∨ ∃ o, (Form.getattr (Path.ops L) L C n id name s).2.forms[id]? = some o ∧
      ∃ f ∈ (C o.cls).fields, f.name = some name ∧ Fits L (Form.getattr (Path.ops L) L C n id name s).2.forms f w :=
  (Good.formGetattr (Path.typed L) (Good.mapField (Path.typed L) hC n) hC id name (h.ok (Path.typed L) hC)).2.2 w hw

/-- In plain words, for an `Integer` field: what is stored is an integer between the bounds, or `None` if the field is
nullable. -/
theorem C68_integer_partial (hC : C.All (HandsOff C)) (h : Orderly (Path.ops L) L C Path.Plain s) {id : Nat} {o : FormObj}
    (ho : s.forms[id]? = some o) {n : String} {v : Val} (hv : dictGet? o.items (.str n) = some v) {f : Field}
    (hf : f ∈ (C o.cls).fields) (hn : f.name = some n) (hu : ∀ g ∈ (C o.cls).fields, g.name = some n → g = f)
    (hb : f.Bare) {c : NumCfg} (hk : f.kind = .integer c) :
    v = .none ∧ f.core.nullable.truthy = true ∨ ∃ i, v = .int i ∧
      (∀ lo, c.min = some (.int lo) → lo ≤ i) ∧ (∀ hi, c.max = some (.int hi) → i ≤ hi) := by
  obtain ⟨g, hg, hgn, hfit⟩ := C68_forms_partial hC h ho hv ⟨f, hf, hn⟩
  rw [hu g hg hgn] at hfit
  obtain ⟨m, hs⟩ := hfit.bare hb
  refine hs.imp_right fun hs => ?_
  rw [hk] at hs
  obtain ⟨i, rfl⟩ := hs
  have ha := m.admits
  rw [hk] at ha
  obtain ⟨h1, h2⟩ := ha (.fin i) rfl (fun h => by cases h)
  refine ⟨i, rfl, fun lo hlo => ?_, fun hi hhi => ?_⟩
  · have := h1 _ (.fin lo) hlo rfl (fun h => by cases h)
    exact Rat.intCast_le_intCast.1 this
  · have := h2 _ (.fin hi) hhi rfl (fun h => by cases h)
    exact Rat.intCast_le_intCast.1 this

/-- For a `String` field: a string that satisfies every option. -/
theorem C68_string_partial (hC : C.All (HandsOff C)) (h : Orderly (Path.ops L) L C Path.Plain s) {id : Nat} {o : FormObj}
    (ho : s.forms[id]? = some o) {n : String} {v : Val} (hv : dictGet? o.items (.str n) = some v) {f : Field}
    (hf : f ∈ (C o.cls).fields) (hn : f.name = some n) (hu : ∀ g ∈ (C o.cls).fields, g.name = some n → g = f)
    (hb : f.Bare) {c : StrCfg} (hk : f.kind = .string c) :
    v = .none ∧ f.core.nullable.truthy = true ∨ ∃ x, v = .str x ∧ StringOK c x := by
  obtain ⟨g, hg, hgn, hfit⟩ := C68_forms_partial hC h ho hv ⟨f, hf, hn⟩
  rw [hu g hg hgn] at hfit
  obtain ⟨m, hs⟩ := hfit.bare hb
  refine hs.imp_right fun hs => ?_
  rw [hk] at hs
  obtain ⟨x, rfl⟩ := hs
  have ha := m.admits
  rw [hk, hb.translations] at ha
  have := ha x rfl
  rw [StrCfg.widen_nil] at this
  exact ⟨x, rfl, this⟩

/-- For a `List` of `SubForm`s: a list of forms of that class, and each of those forms is as valid. -/
theorem C68_subforms_partial (hC : C.All (HandsOff C)) (h : Orderly (Path.ops L) L C Path.Plain s) {id : Nat} {o : FormObj}
    (ho : s.forms[id]? = some o) {n : String} {v : Val} (hv : dictGet? o.items (.str n) = some v) {f : Field}
    (hf : f ∈ (C o.cls).fields) (hn : f.name = some n) (hu : ∀ g ∈ (C o.cls).fields, g.name = some n → g = f)
    (hb : f.Bare) {g : Field} {lo hi : Option Nat} {a : Bool} (hk : f.kind = .list g lo hi a) (hgb : g.Bare) {cls : Nat}
    {r : Bool} {u : Unmapped} (hgk : g.kind = .subform cls r u) :
    v = .none ∧ f.core.nullable.truthy = true ∨ ∃ xs, v = .list xs ∧ (∀ n, lo = some n → n ≤ xs.length) ∧
      (∀ n, hi = some n → xs.length ≤ n) ∧ ∀ x ∈ xs, x = .none ∧ g.core.nullable.truthy = true ∨
        ∃ j o', x = .form j ∧ s.forms[j]? = some o' ∧ o'.cls = cls ∧
          ∀ m w, dictGet? o'.items (.str m) = some w → (∃ k ∈ (C cls).fields, k.name = some m) →
            ∃ k ∈ (C cls).fields, k.name = some m ∧ Fits L s.forms k w := by
  obtain ⟨k, hk', hkn, hfit⟩ := C68_forms_partial hC h ho hv ⟨f, hf, hn⟩
  rw [hu k hk' hkn] at hfit
  obtain ⟨m, hs⟩ := hfit.bare hb
  refine hs.imp_right fun hs => ?_
  rw [hk] at hs
  obtain ⟨xs, rfl, hx⟩ := hs
  have ha := m.admits
  rw [hk] at ha
  obtain ⟨h1, h2⟩ := ha xs rfl
  refine ⟨xs, rfl, h1, h2, fun x hx' => ?_⟩
  obtain ⟨_, hs⟩ := (hx x hx').bare hgb
  refine hs.imp_right fun hs => ?_
  rw [hgk] at hs
  obtain ⟨j, o', rfl, ho', rfl⟩ := hs
  exact ⟨j, o', rfl, ho', rfl, fun m w hw hm => C68_forms_partial hC h ho' hw hm⟩

end

/-! ## Examples and counterexamples -/

namespace ValidDemo
open Demo

/-- `a = Integer(min_value=1)`, `bs = List(SubForm(Inner), max_length=3)`, `m = Integer()` computed from `a`;
`Inner` has `x = String(max_length=2)`. -/
def a : Field := .mk { name := some "a", src := .str "a" } (.integer { min := some (.int 1) })
def bs : Field := .mk { name := some "bs", src := .str "bs" }
  (.list (.mk { src := .none } (.subform 1 false (.str .ignore))) none (some 3) false)
def m : Field := .mk { name := some "m", src := .str "m", compute := some ⟨none, fun self => .getattr self "a"⟩ } (.integer {})
def x : Field := .mk { name := some "x", src := .str "x" } (.string { maxLength := some 2 })

def table : Classes
  | 0 => { fields := [a, bs, m] }
  | 1 => { fields := [x] }
  | _ => { fields := [] }

theorem handsOff_leaf {c : FieldCore} {k : Kind} (hd : c.default = .unset) (hr : c.resolve = none) (hp : c.parse = none)
    (hm : c.munge = none) (hf : c.filter = none) (hv : c.validate = none) (hc : ∀ h, c.compute = some h → ∀ t, (h.body t).HandsOff)
    (hk : ∀ kf vf h r m, k ≠ .dict kf vf (some h) r m) (hs : ∀ cls r u, k = .subform cls r u → u.HandsOff)
    (hpo : ∀ tf pc ts r u, k ≠ .poly tf pc ts r u) : HandsOff table (.mk c k) where
  default h e := by rw [show Field.core (.mk c k) = c from rfl, hd] at e; cases e
  callable h e := by rw [show Field.core (.mk c k) = c from rfl, hd] at e; cases e
  key h e := by rw [show Field.core (.mk c k) = c from rfl, hr] at e; cases e
  data h e := by rw [show Field.core (.mk c k) = c from rfl, hr] at e; cases e
  compute := hc
  parse h e := by rw [show Field.core (.mk c k) = c from rfl, hp] at e; cases e
  munge h e := by rw [show Field.core (.mk c k) = c from rfl, hm] at e; cases e
  filter h e := by rw [show Field.core (.mk c k) = c from rfl, hf] at e; cases e
  validate h e := by rw [show Field.core (.mk c k) = c from rfl, hv] at e; cases e
  keyFilter kf vf h r m e := absurd e (hk _ _ _ _ _)
  subform := hs
  poly tf pc ts r u e := absurd e (hpo _ _ _ _ _)

theorem table_handsOff : table.All (HandsOff table) := by
  have plain : ∀ h, (none : Option (Hook Prog)) = some h → ∀ t, (h.body t).HandsOff := by intro h e; cases e
  intro cls f hf
  match cls with
  | 0 =>
    simp [table] at hf
    rcases hf with rfl | rfl | rfl
    · exact .mk (handsOff_leaf rfl rfl rfl rfl rfl rfl plain (fun _ _ _ _ _ e => by cases e) (fun _ _ _ e => by cases e)
        fun _ _ _ _ _ e => by cases e) .integer
    · refine .mk (handsOff_leaf rfl rfl rfl rfl rfl rfl plain (fun _ _ _ _ _ e => by cases e) (fun _ _ _ e => by cases e)
        fun _ _ _ _ _ e => by cases e) (.list (.mk (handsOff_leaf rfl rfl rfl rfl rfl rfl plain (fun _ _ _ _ _ e => by cases e)
        (fun _ _ _ e => by cases e; exact fun h => by cases h) fun _ _ _ _ _ e => by cases e) (.subform .str)))
    · exact .mk (handsOff_leaf rfl rfl rfl rfl rfl rfl (fun h e t => by cases e; trivial) (fun _ _ _ _ _ e => by cases e)
        (fun _ _ _ e => by cases e) fun _ _ _ _ _ e => by cases e) .integer
  | 1 =>
    simp [table] at hf
    subst hf
    exact .mk (handsOff_leaf rfl rfl rfl rfl rfl rfl plain (fun _ _ _ _ _ e => by cases e) (fun _ _ _ e => by cases e)
        fun _ _ _ _ _ e => by cases e) .string
  | n + 2 => simp [table] at hf

/-- Constructing a form and mapping it again. -/
def prog1 : St Path := ((Call.construct 0 (.data (.dict [(.str "a", .int 5),
    (.str "bs", .list [.dict [(.str "x", .str "uv")], .dict [(.str "x", .str "w")]])]))).run (Path.ops lib) lib table 12 St.init).2
def prog2 : St Path := ((Call.formMap 0 (.data (.dict [(.str "a", .str "0"),
    (.str "bs", .list [.dict [(.str "x", .str "toolong")], .dict [(.str "x", .str "z")]])])) [] false (.str .ignore) false).run
      (Path.ops lib) lib table 12 prog1).2

theorem orderly : Orderly (Path.ops lib) lib table Path.Plain prog2 :=
  .call 12 _ ⟨trivial, fun h => by cases h⟩ (.call 12 _ trivial .init)

/-- What the forms hold. -/
def holds (s : St Path) : List (Nat × List (Val × Val)) := s.forms.map fun o => (o.cls, o.items)

example : holds prog1 = [(0, [(.str "a", .int 5), (.str "bs", .list [.form 1, .form 2]), (.str "m", .int 5)]),
    (1, [(.str "x", .str "uv")]), (1, [(.str "x", .str "w")])] := by decide +kernel

/-- The invalid `a` is not stored: the form still has the old one; of the invalid sub form only the form object stays. -/
example : holds prog2 = [(0, [(.str "a", .int 5), (.str "bs", .list [.form 4]), (.str "m", .int 5)]),
    (1, [(.str "x", .str "uv")]), (1, [(.str "x", .str "w")]), (1, []), (1, [(.str "x", .str "z")])] := by decide +kernel

/-- The theorems apply to this program. -/
example {o : FormObj} (ho : prog2.forms[0]? = some o) (hc : o.cls = 0) {v : Val}
    (hv : dictGet? o.items (.str "a") = some v) : v = .none ∨ ∃ i, v = .int i ∧ 1 ≤ i := by
  refine (C68_integer_partial table_handsOff orderly ho hv (f := a) (by rw [hc]; simp [table]) rfl (fun g hg hn => ?_)
    ⟨rfl, rfl, rfl, rfl, rfl⟩ rfl).imp (·.1) fun ⟨i, e, h, _⟩ => ⟨i, e, h 1 rfl⟩
  rw [hc] at hg
  simp [table] at hg
  rcases hg with rfl | rfl | rfl
  · rfl
  · exact absurd hn (by decide)
  · exact absurd hn (by decide)

example : a.Bare ∧ bs.Bare := ⟨⟨rfl, rfl, rfl, rfl, rfl⟩, ⟨rfl, rfl, rfl, rfl, rfl⟩⟩

/-- C68 is false with `unmapped='capture'`: the rejected value of a field is captured under the name of the field. -/
theorem C68_capture_counterexample : ∃ (s : St Path) (o : FormObj),
    s = ((Call.formMap 0 (.data (.dict [(.str "a", .str "x")])) [] false (.str .capture) false).run (Path.ops lib) lib table 12
      ((Call.construct 0 .none).run (Path.ops lib) lib table 12 St.init).2).2 ∧
    s.forms[0]? = some o ∧ dictGet? o.items (.str "a") = some (.str "x") ∧ a ∈ (table o.cls).fields ∧
      ¬ ∃ f ∈ (table o.cls).fields, f.name = some "a" ∧ Fits lib s.forms f (.str "x") := by
  have key : ((((Call.formMap 0 (.data (.dict [(.str "a", .str "x")])) [] false (.str .capture) false).run (Path.ops lib) lib
      table 12 ((Call.construct 0 .none).run (Path.ops lib) lib table 12 St.init).2).2).forms[0]?).map
        (fun o => (o.cls, o.items)) = some (0, [(.str "a", .str "x")]) := by decide +kernel
  obtain ⟨o, ho, e⟩ := Option.map_eq_some_iff.1 key
  obtain ⟨cls, items, par⟩ := o
  cases e
  refine ⟨_, _, rfl, ho, (by show dictGet? [(Val.str "a", Val.str "x")] (.str "a") = some (.str "x"); decide +kernel), by simp [table], ?_⟩
  rintro ⟨f, hf, hn, hfit⟩
  have hf : f ∈ [a, bs, m] := hf
  simp at hf
  rcases hf with rfl | rfl | rfl
  · obtain ⟨_, ⟨h, _⟩ | ⟨i, h⟩⟩ := hfit.bare ⟨rfl, rfl, rfl, rfl, rfl⟩ <;> cases h
  · exact absurd hn (by decide)
  · exact absurd hn (by decide)

/-- `w = String(None)`: reads the form's own place in the source. -/
def w : Field := .mk { name := some "w", src := .none } (.string {})
def whole : Classes
  | 0 => { fields := [w] }
  | _ => { fields := [] }

/-- C68 is false for union sources: a `String` field at a place with a mapping gets the internal `Mapping` object, without
an error. -/
theorem C68_union_counterexample : ∃ (s : St Path) (o : FormObj),
    s = ((Call.construct 0 (.source ((UPath.mk' lib { mappingMerge := .first } [SPath.native (.dict [(.str "k", .int 1)]) none]).map
      fun u => Path.base (.union u)))).run (Path.ops lib) lib whole 12 St.init).2 ∧
    s.forms[0]? = some o ∧ dictGet? o.items (.str "w") = some (.obj 1) ∧ w ∈ (whole o.cls).fields ∧
      ¬ ∃ f ∈ (whole o.cls).fields, f.name = some "w" ∧ Fits lib s.forms f (.obj 1) := by
  have key : ((((Call.construct 0 (.source ((UPath.mk' lib { mappingMerge := .first }
      [SPath.native (.dict [(.str "k", .int 1)]) none]).map fun u => Path.base (.union u)))).run (Path.ops lib) lib whole 12
        St.init).2).forms[0]?).map (fun o => (o.cls, o.items)) = some (0, [(.str "w", .obj 1)]) := by decide +kernel
  obtain ⟨o, ho, e⟩ := Option.map_eq_some_iff.1 key
  obtain ⟨cls, items, par⟩ := o
  cases e
  refine ⟨_, _, rfl, ho, (by show dictGet? [(Val.str "w", Val.obj 1)] (.str "w") = some (.obj 1); decide +kernel), by simp [whole], ?_⟩
  rintro ⟨f, hf, hn, hfit⟩
  have hf : f ∈ [w] := hf
  cases List.mem_singleton.1 hf
  obtain ⟨_, ⟨h, _⟩ | ⟨i, h⟩⟩ := hfit.bare ⟨rfl, rfl, rfl, rfl, rfl⟩ <;> cases h

end ValidDemo
end Pilo
