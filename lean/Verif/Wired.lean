import Verif.Sure

/-!
# Fields whose hooks read other fields

Hooks of a field get the form (`pilo/fields.py:226-230`) and may read its other fields, which are then mapped on the
spot unless the form has values for them (`pilo/fields.py:622-653`).
-/

namespace Pilo
variable {P : Type} {I : PathOps P} {L : Lib} {W : LawfulPath I} {Z : Pin I}

/-- Programs that compute with the fields of form `id` whose names satisfy `F`: they read them and attributes of other
values, report errors, return and raise, and neither handle exceptions nor use the context otherwise. -/
inductive Peeks (F : String → Prop) (id : Nat) : Prog → Prop where
  | ret (v : Val) : Peeks F id (.ret v)
  | raise (e : Exc) : Peeks F id (.raise e)
  | bind {p : Prog} {k : Val → Prog} (hp : Peeks F id p) (hk : ∀ v, Peeks F id (k v)) : Peeks F id (.bind p k)
  | field {name : String} (h : F name) : Peeks F id (.getattr (.form id) name)
  | attr {v : Val} {name : String} (h : ∀ i, v ≠ .form i) : Peeks F id (.getattr v name)
  | invalid (msg : String) : Peeks F id (.invalid msg)
  | missing : Peeks F id .missing

/-- The program with the fields of form `id` replaced by what `ρ` says. -/
def Prog.settle (ρ : String → Except Exc Val) (id : Nat) : Prog → Prog
  | .bind p k => .bind (p.settle ρ id) fun v => (k v).settle ρ id
  | .getattr (.form i) name => if i = id then (match ρ name with
      | .ok v => .ret v
      | .error e => .raise e) else .getattr (.form i) name
  | p => p

/-- What such a program gives when the fields are as `ρ` says, and reporting is as `o` says. -/
def Prog.given (L : Lib) (ρ : String → Except Exc Val) (o : ErrKind → Except Exc Unit) : Prog → Except Exc Val
  | .ret v => .ok v
  | .raise e => .error e
  | .bind p k => match p.given L ρ o with
    | .ok v => (k v).given L ρ o
    | .error e => .error e
  | .getattr (.form _) name => ρ name
  | .getattr v name => match pyGetAttr L v name with
    | some w => .ok w
    | none => .error (.attributeError ("object has no attribute '" ++ name ++ "'"))
  | .invalid msg => match o (.invalid msg) with
    | .ok _ => .ok .none
    | .error e => .error e
  | .missing => match o .missing with
    | .ok _ => .ok .none
    | .error e => .error e
  | _ => .ok .none

theorem Peeks.mono {F G : String → Prop} {id : Nat} (h : ∀ n, F n → G n) {p : Prog} (hp : Peeks F id p) : Peeks G id p := by
  induction hp with
  | ret v => exact .ret v
  | raise e => exact .raise e
  | bind _ _ h1 h2 => exact .bind h1 h2
  | field hn => exact .field (h _ hn)
  | attr hv => exact .attr hv
  | invalid m => exact .invalid m
  | missing => exact .missing

theorem Peeks.settle {F G : String → Prop} {id : Nat} {ρ : String → Except Exc Val} {p : Prog} (hp : Peeks F id p) :
    Peeks G id (p.settle ρ id) := by
  induction hp with
  | ret v => exact .ret v
  | raise e => exact .raise e
  | bind _ _ h1 h2 => exact .bind h1 h2
  | @field name hn =>
    unfold Prog.settle
    rw [if_pos rfl]
    cases ρ name with
    | ok v => exact .ret v
    | error e => exact .raise e
  | @attr v name hv =>
    cases v with
    | form i => exact absurd rfl (hv i)
    | _ => exact .attr (by intro i h; cases h)
  | invalid m => exact .invalid m
  | missing => exact .missing

theorem Peeks.settle_given {F : String → Prop} {id : Nat} {ρ : String → Except Exc Val} {o : ErrKind → Except Exc Unit} {p : Prog}
    (hp : Peeks F id p) : (p.settle ρ id).given L ρ o = p.given L ρ o := by
  induction hp with
  | bind _ _ h1 h2 =>
    unfold Prog.settle Prog.given
    rw [h1]
    cases Prog.given L ρ o _ with
    | ok v => exact h2 v
    | error e => rfl
  | @field name hn =>
    unfold Prog.settle
    rw [if_pos rfl]
    show _ = ρ name
    cases ρ name <;> rfl
  | @attr v name hv =>
    cases v with
    | form i => exact absurd rfl (hv i)
    | _ => rfl
  | _ => rfl

/-- The hook with its body changed. -/
def Hook.on (φ : Prog → Prog) (h : Hook Prog) : Hook Prog := { h with body := fun t => φ (h.body t) }

/-- The hook with its body changed. -/
def Hook.on1 (φ : Prog → Prog) (h : Hook (Val → Prog)) : Hook (Val → Prog) := { h with body := fun t v => φ (h.body t v) }

/-- The default with its program changed. -/
def Default.on (φ : Prog → Prog) : Default → Default
  | .hook h => .hook (h.on φ)
  | .callable p => .callable (φ p)
  | d => d

/-- The field with the bodies of its hooks `compute`, `munge`, `filter`, `validate` and `default` changed. -/
def Field.on (φ : Prog → Prog) : Field → Field
  | .mk c k => .mk { c with
      compute := c.compute.map (Hook.on φ)
      munge := c.munge.map (Hook.on1 φ)
      filter := c.filter.map (Hook.on1 φ)
      validate := c.validate.map (Hook.on1 φ)
      default := c.default.on φ } k

/-- The field with what its hooks read of form `id` replaced by what `ρ` says. -/
def Field.settle (ρ : String → Except Exc Val) (id : Nat) (f : Field) : Field := f.on (Prog.settle ρ id)

/-- The default, unless it is a program. -/
def Default.plain : Default → Default
  | .hook _ => .unset
  | .callable _ => .unset
  | d => d

/-- The field without its hooks `compute`, `munge`, `filter`, `validate` and `default`. -/
def Field.unwired : Field → Field
  | .mk c k => .mk { c with compute := none, munge := none, filter := none, validate := none, default := c.default.plain } k

/-- The hook is not attached to an object, and reads. -/
def Hook.Peeks (F : String → Prop) (id : Nat) (h : Hook Prog) : Prop := h.target = none ∧ Pilo.Peeks F id (h.body (.form id))

/-- The hook is not attached to an object, and reads. -/
def Hook.Peeks1 (F : String → Prop) (id : Nat) (h : Hook (Val → Prog)) : Prop :=
  h.target = none ∧ ∀ v, Pilo.Peeks F id (h.body (.form id) v)

/-- The default is a value, or a program that reads. -/
def Default.Peeks (F : String → Prop) (id : Nat) : Default → Prop
  | .hook h => h.Peeks F id
  | .callable p => Pilo.Peeks F id p
  | _ => True

/-- All of the hooks read. -/
structure Field.HooksRead (F : String → Prop) (id : Nat) (f : Field) : Prop where
  resolve : f.core.resolve = none
  munge : ∀ h, f.core.munge = some h → h.Peeks1 F id
  filter : ∀ h, f.core.filter = some h → h.Peeks1 F id
  validate : ∀ h, f.core.validate = some h → h.Peeks1 F id
  default : f.core.default.Peeks F id

/-- `Dict` and `Group` fields use the default when what they read is `NONE`, too (`pilo/fields.py:1157-1159`). -/
def Kind.usesDefault : Kind → Bool
  | .dict .. => true
  | .group _ => true
  | _ => false

/-- A field whose hooks read only fields that are again so, at most `n` steps away.  The field is computed by a hook, or
it is a field without sub forms whose nested fields have no hooks. -/
def Wired (D : String → Option Field) (id : Nat) : Nat → Field → Prop
  | 0, _ => False
  | n + 1, f => f.HooksRead (fun name => ∃ c, D name = some c ∧ Wired D id n c) id ∧
    match f.core.compute with
    | some h => h.Peeks (fun name => ∃ c, D name = some c ∧ Wired D id n c) id
    | none => Level (n + 1) f.unwired ∧ (f.kind.usesDefault = true → f.core.default.plain = f.core.default)

theorem Field.HooksRead.mono {F G : String → Prop} {id : Nat} (h : ∀ n, F n → G n) {f : Field} (hf : f.HooksRead F id) :
    f.HooksRead G id := by
  refine ⟨hf.resolve, fun k hk => ⟨(hf.munge k hk).1, fun v => ((hf.munge k hk).2 v).mono h⟩,
    fun k hk => ⟨(hf.filter k hk).1, fun v => ((hf.filter k hk).2 v).mono h⟩,
    fun k hk => ⟨(hf.validate k hk).1, fun v => ((hf.validate k hk).2 v).mono h⟩, ?_⟩
  have := hf.default
  cases hd : f.core.default with
  | hook k => rw [hd] at this; exact ⟨this.1, this.2.mono h⟩
  | callable p => rw [hd] at this; exact Peeks.mono h this
  | unset => trivial
  | value v => trivial

theorem Wired.mono {D : String → Option Field} {id n m : Nat} : ∀ {f : Field}, Wired D id n f → n ≤ m → Wired D id m f := by
  induction n generalizing m with
  | zero => intro f h; exact h.elim
  | succ n ih =>
    intro f h hm
    obtain ⟨m, rfl⟩ : ∃ m', m = m' + 1 := ⟨m - 1, by omega⟩
    obtain ⟨h1, h2⟩ := h
    have hn : ∀ name, (∃ c, D name = some c ∧ Wired D id n c) → ∃ c, D name = some c ∧ Wired D id m c := by
      rintro name ⟨c, h4, h5⟩
      exact ⟨c, h4, ih h5 (by omega)⟩
    refine ⟨h1.mono hn, ?_⟩
    cases hc : f.core.compute with
    | some h => rw [hc] at h2; exact ⟨h2.1, h2.2.mono hn⟩
    | none => rw [hc] at h2; exact ⟨h2.1.mono hm, h2.2⟩

/-- What `ρ` says of a field agrees with the entry of the form or, without one, with what mapping the field gives. -/
def Foretold (D : String → Option Field) (ρ : String → Except Exc Val) (g : Field → Except Exc Val) (name : String) (o : Option Val) : Prop :=
  ∀ c, D name = some c → ρ name = match o with
    | some v => .ok v
    | none => g c

/-- The setting: form `id`, at whose fields the context is as in `s1`, with path `p0`. -/
structure Rig (Z : Pin I) (W : LawfulPath I) (D : String → Option Field) (id : Nat) (s1 : St P) (p0 : P) (N : Nat)
    (g : Field → Except Exc Val) : Prop where
  top : ∃ rest, s1.stack = formFrame id :: rest
  zero : ∀ p, Z.O 0 p → p = p0
  here : Z.O 0 p0
  wf : W.WF p0
  stop : ∀ name c, D name = some c → Wired D id N c → g c ≠ .error .rewindDidNotStop

namespace Wired
variable {D : String → Option Field} {id cls N k : Nat} {s1 : St P} {p0 px : P} {g : Field → Except Exc Val}
  {ρ : String → Except Exc Val} {F : List Frame}

/-- Mapping a field at the form gives what `g` says. -/
def Gives (I : PathOps P) (L : Lib) (W : LawfulPath I) (D : String → Option Field) (ρ : String → Except Exc Val)
    (g : Field → Except Exc Val) (id cls : Nat) (s1 : St P) (p0 : P) (k : Nat) (C : Classes) (n : Nat) : Prop :=
  ∀ c, Wired D id k c → ∀ s, Perch W s1 id cls (Foretold D ρ g) [] p0 s →
    (mapField I L C n c .NONE s).1 = g c ∧ ∀ v, g c = .ok v → Perch W s1 id cls (Foretold D ρ g) [] p0 (mapField I L C n c .NONE s).2

/-- The frames inside a field, and the path there. -/
structure Inside (I : PathOps P) (W : LawfulPath I) (Z : Pin I) (id : Nat) (p0 : P) (F : List Frame) (px : P) : Prop where
  light : Light id F
  parent : lookup Frame.parent F ≠ none
  keys : AppendsTo I p0 (segKeys F.reverse) px
  over : Z.O (segKeys F.reverse).length px
  wf : W.WF px

variable {C : Classes} {n : Nat} {s : St P}

theorem eval (hR : Rig Z W D id s1 p0 N g) (hC : (C cls).field? = D) (hkN : k ≤ N)
    (ih : Gives I L W D ρ g id cls s1 p0 k C n) (hF : Inside I W Z id p0 F px) {o : ErrKind → Except Exc Unit}
    (ho : ∀ e s, Seat Z W s1 id cls (Foretold D ρ g) F px s → (report I e s).1 = o e ∧
      ∀ x, o e = .ok x → Seat Z W s1 id cls (Foretold D ρ g) F px (report I e s).2) {q : Prog}
    (hq : Peeks (fun name => ∃ c, D name = some c ∧ Wired D id k c) id q) : ∀ {s : St P},
    Seat Z W s1 id cls (Foretold D ρ g) F px s →
    (evalProg I L C (mapField I L C n) q s).1 = q.given L ρ o ∧ ∀ v, q.given L ρ o = .ok v →
      Seat Z W s1 id cls (Foretold D ρ g) F px (evalProg I L C (mapField I L C n) q s).2 := by
  have hrep : ∀ e (s : St P), Seat Z W s1 id cls (Foretold D ρ g) F px s →
      ((report I e >>= fun _ => M.pure Val.none) s).1 = (match o e with
        | .ok _ => .ok Val.none
        | .error e => .error e) ∧ ∀ v, (match o e with
        | .ok _ => .ok Val.none
        | .error e => .error e) = Except.ok v →
        Seat Z W s1 id cls (Foretold D ρ g) F px ((report I e >>= fun _ => M.pure Val.none) s).2 := by
    intro e s hs
    obtain ⟨h1, h2⟩ := ho e s hs
    rcases hx : report I e s with ⟨x, s'⟩
    rw [hx] at h1 h2
    dsimp only at h1
    rw [← h1]
    cases x with
    | error y => rw [M.bind_error hx]; exact ⟨rfl, fun _ hv => nomatch hv⟩
    | ok u => rw [M.bind_ok hx]; exact ⟨rfl, fun _ _ => h2 u h1.symm⟩
  induction hq with
  | ret v => intro s h; exact ⟨rfl, fun _ _ => h⟩
  | raise e => intro s h; exact ⟨rfl, fun _ hv => nomatch hv⟩
  | @bind a b _ _ ih1 ih2 =>
    intro s h
    obtain ⟨e1, e2⟩ := ih1 h
    have hev : evalProg I L C (mapField I L C n) (.bind a b) s =
      (evalProg I L C (mapField I L C n) a >>= fun v => evalProg I L C (mapField I L C n) (b v)) s := rfl
    rw [hev]
    rcases hx : evalProg I L C (mapField I L C n) a s with ⟨x, s'⟩
    rw [hx] at e1 e2
    dsimp only at e1
    unfold Prog.given
    rw [← e1] at e2 ⊢
    cases x with
    | error e => rw [M.bind_error hx]; exact ⟨rfl, fun _ hv => nomatch hv⟩
    | ok v =>
      rw [M.bind_ok hx]
      exact ih2 v (e2 v rfl)
  | @field name hn =>
    intro s h
    obtain ⟨c, hc, hw⟩ := hn
    obtain ⟨rest, htop⟩ := hR.top
    obtain ⟨p, hO, hsm, hp⟩ := h
    have hname : c.key = .str name := by
      have h1 : (C cls).field? name = some c := by rw [hC]; exact hc
      have h2 := List.find?_some h1
      have h3 : c.name = some name := by simpa using h2
      unfold Field.key; rw [h3]
    have hget : evalProg I L C (mapField I L C n) (.getattr (.form id) name) s = fieldGet I (mapField I L C n) c id s := by
      unfold evalProg formGetattr
      have h1 : formCls id s = (.ok cls, s) := by
        have := hp.ofClass
        unfold formCls
        cases ho : s.forms[id]? with
        | none => rw [ho] at this; cases this
        | some o => rw [ho] at this; cases this; rfl
      rw [M.bind_ok h1, hC, hc]
    rw [hget]
    unfold Prog.given
    have hsame := hp.same name c hc
    cases he : s.entry id name with
    | some v =>
      rw [he] at hsame
      rw [Getattr.get_stored hname he, hsame]
      exact ⟨rfl, fun _ _ => ⟨p, hO, hsm, hp⟩⟩
    | none =>
      rw [he] at hsame
      dsimp only at hsame
      rw [hsame]
      obtain ⟨h1, h2⟩ := hp.read hF.light hF.parent htop hR.zero hO hF.keys hname he (rec := mapField I L C n) (Keeps.mapField n c .NONE)
        (hR.stop name c hc (hw.mono hkN)) (ih c hw)
      exact ⟨h1, fun v hv => .exact_ hF.over (h2 v hv)⟩
  | @attr v name hv =>
    intro s h
    have : evalProg I L C (mapField I L C n) (.getattr v name) s = ((Prog.getattr v name).given L ρ o, s) := by
      cases v with
      | form i => exact absurd rfl (hv i)
      | _ =>
        unfold evalProg Prog.given
        cases pyGetAttr L _ name <;> rfl
    rw [this]
    exact ⟨rfl, fun _ _ => h⟩
  | invalid m => intro s h; exact hrep (.invalid m) s h
  | missing => intro s h; exact hrep .missing s h

end Wired
end Pilo
