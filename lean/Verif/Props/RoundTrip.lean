import Verif.Land
import Verif.Props.Forms
import Verif.Props.Modes
import Verif.Props.FormsDemo

/-!
# C69: a form is what its data maps to

`cls(data)`, with the data of a form of the class, is a form alike.
-/

namespace Pilo
open Capture

theorem Live.grow {P : Type} {s : St P} (h : Live s) (o : FormObj) : Live { s with forms := s.forms ++ [o] } where
  root := h.root
  path := h.path
  errs := h.errs
  ids := by
    intro fr hfr id hid
    have := h.ids fr hfr id hid
    simp only [List.length_append, List.length_singleton]
    omega

/-- C69, of source documents whose keys have no syntax in them (`Legible`), and of fields without hooks and translations
read from the entries of their names: given the data of a form, the class makes a form alike, without errors, and
touches nothing else. -/
theorem C69_round_trip_partial {L : Lib} {C : Classes} {kvs : List (Val × Val)} {src : SrcArg Path} {d : DocKind}
    {cls id : Nat} (ho : Opens kvs src d) (hC : C.All Field.Undecorated) {s : St Path} (hl : Live s)
    (ht : s.env.tags.getD [] = []) (hig : s.env.ignoreDefault = some false)
    (hd : Dumps L d C (fun i => s.forms[i]?) (.mk {} (.subform cls false (.str .ignore))) (.form id) (.dict kvs)) :
    ∃ N, ∀ n ≥ N, ∃ s', (Call.construct cls src).run (Path.ops L) L C n s = (.ok (.form s.forms.length), s') ∧
      s'.stack = s.stack ∧ (∀ i < s.forms.length, s'.forms[i]? = s.forms[i]?) ∧
      Alike (fun i => s.forms[i]?) (fun i => s'.forms[i]?) (.form id) (.form s.forms.length) := by
  have hd0 := hd
  cases hd with
  | @form _ cls' rst u _ o _ ys h hu hi hoo hc hk hn ho' hx hy hz hki hkk =>
    cases h
    obtain ⟨N, hN⟩ := bound (p := fun (g : Field) n => ∀ x, dictGet? o.items g.key = some x → Lands L d C n g (ys g))
      (C cls).fields (by
      intro g hg
      cases hgx : dictGet? o.items g.key with
      | none => exact ⟨0, fun n _ x hx => by cases hx⟩
      | some x =>
        obtain ⟨N, hN⟩ := (hx g hg x hgx).lands hC (hC cls g hg)
        exact ⟨N, fun n hn _ _ => hN n hn⟩)
    refine ⟨N + 1, fun n hn' => ?_⟩
    obtain ⟨n, rfl⟩ : ∃ m, n = m + 1 := ⟨n - 1, by omega⟩
    let s0 : St Path := { s with forms := s.forms ++ [{ cls := cls, items := [] }] }
    have hl0 : Live s0 := hl.grow _
    obtain ⟨τ', o', e, -, hlen, hold, ho2, hc2, hp2, ha2, hi2⟩ := root_run (L := L) (C := C) (n := n) (id := s.forms.length)
      (env := s0.env) (τ := s0.view) (o := { cls := cls, items := [] }) (D := fun g => (dictGet? o.items g.key).map fun _ => ys g)
      ho (.inl rfl) hk ht hig hl0.src false false (by simp [s0, St.view]) rfl (by
        intro g hg
        refine ⟨(hC cls g hg).node, ho' g hg, ?_⟩
        cases hgx : dictGet? o.items g.key with
        | none => exact hz g hg hgx
        | some x => exact ⟨hy g hg x hgx, hN g hg n (by omega) x hgx⟩) hn
    have hlex : C.All LexNode := fun c g hg => (hC c g hg).imp fun _ h => h.free.lexNode
    have hr := RefE.formMap (I := Path.ops L) hlex (Ref.mapField (I := Path.ops L) (L := L) hlex (n + 1)) s.forms.length src []
      false (u := .str .ignore) .str false _ _ _ hl0.agree
    obtain ⟨b, hb1, hb2⟩ := hr.of_ok (congrArg Prod.fst e)
    have hagree := hr.agree
    have hfr := hr.fr
    rw [e] at hagree
    rcases hm : formMap (Path.ops L) C (mapField (Path.ops L) L C (n + 1)) s.forms.length src [] false (.str .ignore) false s0
      with ⟨x, s'⟩
    rw [hm] at hb1 hb2 hagree hfr
    cases hb1
    have hinit := (C10_constructor (I := Path.ops L) (L := L) (C := C) (n + 1) cls src (by cases ho <;> simp)
      (by intro v hv; cases ho <;> cases hv; exact .inl ⟨_, rfl⟩) s).1 b s' hm
    rw [if_pos hb2] at hinit
    have hforms : s'.forms = τ'.forms := hagree.forms
    have hcopy : Dumps L d C (fun i => s'.forms[i]?) (.mk {} (.subform cls false (.str .ignore)))
        (.form s.forms.length) (.dict kvs) := by
      refine .again (o := o) rfl hu hi (by rw [hforms]; exact ho2) hc2 hk hn ho' hy hz hkk ?_ ?_ hi2
      · intro g hg x hx
        obtain ⟨x', h1, h2⟩ := hp2 g hg (ys g) (by rw [hx]; rfl)
        refine ⟨x', h1, h2.mono ?_⟩
        intro i o'' h
        unfold newer at h
        split at h
        · rw [hforms]; exact h
        · cases h
      · intro g hg hx
        exact ha2 g hg (by rw [hx]; rfl)
    refine ⟨s', ?_, hfr.stack, ?_, hd0.alike hcopy⟩
    · exact M.bind_ok hinit
    · intro i hi
      rw [hforms, hold i (by simp [s0, St.view]; omega) (by omega)]
      simp [s0, St.view, List.getElem?_append_left hi]

/-! ## Examples -/

namespace Demo

/-- `class Line: sku = String(min_length=2); qty = Integer(min=1)`. -/
def classLine : ClassDef where
  fields := [field "sku" (.string { minLength := some 2 }), field "qty" (.integer { min := some (.int 1) })]

/-- `class Order: lines = List(SubForm(Line)); note = String(default=NONE); counts = Dict(String(), Integer());
gift = Boolean(nullable=True)`. -/
def classOrder : ClassDef where
  fields := [field "lines" (.list (.mk {} (.subform 0 false (.str .ignore))) none none false),
    .mk { name := some "note", src := .str "note", default := .value .NONE } (.string {}),
    field "counts" (.dict (.mk {} (.string {})) (.mk {} (.integer {})) none (.set []) none),
    .mk { name := some "gift", src := .str "gift", nullable := .bool true } .boolean]

def orders : Classes
  | 0 => classLine
  | 1 => classOrder
  | _ => { fields := [] }

/-- A thread with an order of one line and without a note. -/
def ordered : St Path where
  stack := [rootFrame]
  paths := []
  errs := []
  forms := [⟨0, [(.str "sku", .str "ab"), (.str "qty", .int 3)], none⟩,
    ⟨1, [(.str "lines", .list [.form 0]), (.str "counts", .dict [(.str "x", .int 1)]), (.str "gift", .none)], none⟩]

/-- `{"sku": "ab", "qty": 3}`. -/
def lineData : List (Val × Val) := [(.str "sku", .str "ab"), (.str "qty", .int 3)]

/-- `{"lines": [{"sku": "ab", "qty": 3}], "counts": {"x": 1}, "gift": null}`. -/
def orderData : List (Val × Val) :=
  [(.str "lines", .list [.dict lineData]), (.str "counts", .dict [(.str "x", .int 1)]), (.str "gift", .none)]

theorem undecorated {n : String} {k : Kind} (hk : ∀ kf vf h r m, k ≠ .dict kf vf (some h) r m) :
    (field n k).Undecorated := ⟨hookFree_plain hk, rfl, rfl⟩

theorem undecorated' {k : Kind} (hk : ∀ kf vf h r m, k ≠ .dict kf vf (some h) r m) :
    (Field.mk {} k).Undecorated := ⟨hookFree_plain hk, rfl, rfl⟩

theorem orders_undecorated : orders.All Field.Undecorated := by
  intro cls f hf
  match cls with
  | 0 =>
    simp only [orders, classLine, List.mem_cons, List.not_mem_nil, or_false] at hf
    rcases hf with rfl | rfl
    · exact .mk (undecorated (by intro _ _ _ _ _ h; cases h)) .string
    · exact .mk (undecorated (by intro _ _ _ _ _ h; cases h)) .integer
  | 1 =>
    simp only [orders, classOrder, List.mem_cons, List.not_mem_nil, or_false] at hf
    rcases hf with rfl | rfl | rfl | rfl
    · exact .mk (undecorated (by intro _ _ _ _ _ h; cases h))
        (.list (.mk (undecorated' (by intro _ _ _ _ _ h; cases h)) (.subform .str)))
    · exact .mk ⟨⟨.inr ⟨_, rfl⟩, rfl, rfl, rfl, rfl, rfl, rfl, by intro _ _ _ _ _ h; cases h⟩, rfl, rfl⟩ .string
    · exact .mk (undecorated (by intro _ _ _ _ _ h; cases h))
        (.dict (.mk (undecorated' (by intro _ _ _ _ _ h; cases h)) .string)
          (.mk (undecorated' (by intro _ _ _ _ _ h; cases h)) .integer))
    · exact .mk ⟨⟨.inl rfl, rfl, rfl, rfl, rfl, rfl, rfl, by intro _ _ _ _ _ h; cases h⟩, rfl, rfl⟩ .boolean
  | n + 2 => simp [orders] at hf

theorem ordered_live : Live ordered where
  root := by simp [ordered]
  path := by intro r h; simp [ordered, curPath, lookup, rootFrame, FrameSrc.path?] at h
  errs := by intro e h; simp [ordered, lookup, rootFrame] at h
  ids := by intro fr hfr id h; simp [ordered] at hfr; subst hfr; simp [rootFrame] at h

variable {d : DocKind}

theorem line_dumps (hp : Capture.Plain d "sku" ∧ Capture.Plain d "qty") :
    Dumps lib d orders (fun i => ordered.forms[i]?) (.mk {} (.subform 0 false (.str .ignore))) (.form 0) (.dict lineData) := by
  refine .form (o := ⟨0, [(.str "sku", .str "ab"), (.str "qty", .int 3)], none⟩)
    (ys := fun g => if g.name = some "sku" then .str "ab" else .int 3) rfl (.inl rfl) rfl rfl rfl ?_ ?_ ?_ ?_ ?_ ?_ ?_ ?_
  · refine ⟨?_, by decide, by simp [lineData]⟩
    intro kv h
    simp only [lineData, List.mem_cons, List.not_mem_nil, or_false] at h
    rcases h with rfl | rfl
    · exact ⟨_, rfl, hp.1⟩
    · exact ⟨_, rfl, hp.2⟩
  · simp [orders, classLine, field, Field.name, Field.core]
  all_goals intro g hg
  case refine_3 =>
    simp only [orders, classLine, List.mem_cons, List.not_mem_nil, or_false] at hg
    rcases hg with rfl | rfl <;> exact ⟨_, rfl, rfl, by intro fs h; cases h⟩
  case refine_4 =>
    simp only [orders, classLine, List.mem_cons, List.not_mem_nil, or_false] at hg
    rcases hg with rfl | rfl <;> (intro x hx; cases hx)
    · refine .leaf ⟨_, rfl, ?_⟩ (by intro x h; cases h)
      refine ⟨by intro h; exact absurd rfl h, ?_, ?_, ?_, by intro h; exact absurd rfl h⟩
      · intro n h; cases h; decide
      · intro n h; cases h
      · intro m t h; cases h
    · refine .leaf ⟨_, rfl, ⟨?_, ?_⟩, ⟨?_, ?_⟩⟩ (by intro x h; cases h)
      · rintro lo h; cases h; exact ⟨_, rfl, by intro h; cases h⟩
      · rintro lo h; cases h
      · rintro lo y h h'; cases h; cases h'; show (1 : Rat) ≤ 3; decide
      · rintro lo y h; cases h
  case refine_5 =>
    simp only [orders, classLine, List.mem_cons, List.not_mem_nil, or_false] at hg
    rcases hg with rfl | rfl <;> (intro x hx; cases hx) <;> simp [lineData, field, Field.key, Field.name, Field.core]
  case refine_6 =>
    simp only [orders, classLine, List.mem_cons, List.not_mem_nil, or_false] at hg
    rcases hg with rfl | rfl <;> (intro hx; cases hx)
  case refine_7 =>
    simp only [List.mem_cons, List.not_mem_nil, or_false] at hg
    rcases hg with rfl | rfl
    · exact ⟨field "sku" (.string { minLength := some 2 }), by simp [orders, classLine], rfl⟩
    · exact ⟨field "qty" (.integer { min := some (.int 1) }), by simp [orders, classLine], rfl⟩
  case refine_8 =>
    simp only [lineData, List.mem_cons, List.not_mem_nil, or_false] at hg
    rcases hg with rfl | rfl
    · exact ⟨field "sku" (.string { minLength := some 2 }), by simp [orders, classLine], rfl, _, rfl⟩
    · exact ⟨field "qty" (.integer { min := some (.int 1) }), by simp [orders, classLine], rfl, _, rfl⟩

theorem order_dumps (hp : ∀ k ∈ ["sku", "qty", "lines", "counts", "gift", "x"], Capture.Plain d k)
    (hn : d.step lib (.dict orderData) (.str "note") = .ok .NONE) :
    Dumps lib d orders (fun i => ordered.forms[i]?) (.mk {} (.subform 1 false (.str .ignore))) (.form 1) (.dict orderData) := by
  refine .form (o := ⟨1, [(.str "lines", .list [.form 0]), (.str "counts", .dict [(.str "x", .int 1)]), (.str "gift", .none)], none⟩)
    (ys := fun g => if g.name = some "lines" then .list [.dict lineData] else
      if g.name = some "counts" then .dict [(.str "x", .int 1)] else .none) rfl (.inl rfl) rfl rfl rfl ?_ ?_ ?_ ?_ ?_ ?_ ?_ ?_
  · refine ⟨?_, by decide, by simp [orderData]⟩
    intro kv h
    simp only [orderData, List.mem_cons, List.not_mem_nil, or_false] at h
    rcases h with rfl | rfl | rfl <;> exact ⟨_, rfl, hp _ (by simp)⟩
  · simp [orders, classOrder, field, Field.name, Field.core]
  all_goals intro g hg
  case refine_3 =>
    simp only [orders, classOrder, List.mem_cons, List.not_mem_nil, or_false] at hg
    rcases hg with rfl | rfl | rfl | rfl <;> exact ⟨_, rfl, rfl, by intro fs h; cases h⟩
  case refine_4 =>
    simp only [orders, classOrder, List.mem_cons, List.not_mem_nil, or_false] at hg
    rcases hg with rfl | rfl | rfl | rfl <;> (intro x hx; cases hx)
    · refine .list (xs := [.form 0]) (ws := [.dict lineData]) rfl rfl rfl ⟨(by intro l h; cases h), (by intro l h; cases h)⟩ rfl ?_
      intro i x w hx hw
      match i with
      | 0 => cases hx; cases hw; exact line_dumps ⟨hp _ (by simp), hp _ (by simp)⟩
      | i + 1 => cases hx
    · refine .dict (ts := [(.str "x", .int 1, .int 1)]) rfl rfl rfl (by intro k h; cases h) (by intro n h; cases h) ?_ ?_ ?_
      · refine ⟨?_, by decide, by simp⟩
        intro kv h
        simp only [List.map_cons, List.map_nil, List.mem_cons, List.not_mem_nil, or_false] at h
        subst h
        exact ⟨_, rfl, hp _ (by simp)⟩
      · intro t h
        simp only [List.mem_cons, List.not_mem_nil, or_false] at h
        subst h
        refine ⟨⟨_, rfl, ?_⟩, by intro x h; cases h⟩
        refine ⟨by intro h; exact absurd rfl h, ?_, ?_, ?_, by intro h; exact absurd rfl h⟩
        · intro n h; cases h
        · intro n h; cases h
        · intro m t h; cases h
      · intro t h
        simp only [List.mem_cons, List.not_mem_nil, or_false] at h
        subst h
        refine .leaf ⟨_, rfl, ⟨?_, ?_⟩, ⟨?_, ?_⟩⟩ (by intro x h; cases h)
        · intro lo h; cases h
        · intro lo h; cases h
        · intro lo y h; cases h
        · intro lo y h; cases h
    · exact .null rfl (by intro x h; cases h)
  case refine_5 =>
    simp only [orders, classOrder, List.mem_cons, List.not_mem_nil, or_false] at hg
    rcases hg with rfl | rfl | rfl | rfl <;> (intro x hx; cases hx) <;>
      simp [orderData, field, Field.key, Field.name, Field.core]
  case refine_6 =>
    simp only [orders, classOrder, List.mem_cons, List.not_mem_nil, or_false] at hg
    rcases hg with rfl | rfl | rfl | rfl <;> (intro hx; cases hx)
    exact ⟨rfl, hn⟩
  case refine_7 =>
    simp only [List.mem_cons, List.not_mem_nil, or_false] at hg
    rcases hg with rfl | rfl | rfl
    · exact ⟨_, List.mem_cons_self .., rfl⟩
    · exact ⟨_, List.mem_cons_of_mem _ (List.mem_cons_of_mem _ (List.mem_cons_self ..)), rfl⟩
    · exact ⟨_, List.mem_cons_of_mem _ (List.mem_cons_of_mem _ (List.mem_cons_of_mem _ (List.mem_cons_self ..))), rfl⟩
  case refine_8 =>
    simp only [orderData, List.mem_cons, List.not_mem_nil, or_false] at hg
    rcases hg with rfl | rfl | rfl
    · exact ⟨_, List.mem_cons_self .., rfl, _, rfl⟩
    · exact ⟨_, List.mem_cons_of_mem _ (List.mem_cons_of_mem _ (List.mem_cons_self ..)), rfl, _, rfl⟩
    · exact ⟨_, List.mem_cons_of_mem _ (List.mem_cons_of_mem _ (List.mem_cons_of_mem _ (List.mem_cons_self ..))), rfl, _, rfl⟩

/-- C69 on an order with a line, from a dictionary. -/
example : ∃ N, ∀ n ≥ N, ∃ s',
    (Call.construct 1 (.data (.dict orderData))).run (Path.ops lib) lib orders n ordered = (.ok (.form 2), s') ∧
      s'.stack = ordered.stack ∧ (∀ i < 2, s'.forms[i]? = ordered.forms[i]?) ∧
      Alike (fun i => ordered.forms[i]?) (fun i => s'.forms[i]?) (.form 1) (.form 2) :=
  C69_round_trip_partial .dict orders_undecorated ordered_live rfl rfl
    (order_dumps (by intro k hk; revert k; unfold Capture.Plain; decide) (by decide +kernel))

/-- C69 on the same order, from a JSON document. -/
example : ∃ N, ∀ n ≥ N, ∃ s',
    (Call.construct 1 (.source (.ok (.base (.simple (.json true none { root := .dict orderData, parts := [] })))))).run
        (Path.ops lib) lib orders n ordered = (.ok (.form 2), s') ∧
      s'.stack = ordered.stack ∧ (∀ i < 2, s'.forms[i]? = ordered.forms[i]?) ∧
      Alike (fun i => ordered.forms[i]?) (fun i => s'.forms[i]?) (.form 1) (.form 2) :=
  C69_round_trip_partial (.json true none) orders_undecorated ordered_live rfl rfl
    (order_dumps (by intro k hk; revert k; unfold Capture.Plain; decide) (by decide +kernel))

/-- `class D: a = String(min_length=3, default="x")`, `class R: a = Integer("b")`. -/
def lossy : Classes
  | 0 => { fields := [.mk { name := some "a", src := .str "a", default := .value (.str "x") } (.string { minLength := some 3 })] }
  | 1 => { fields := [.mk { name := some "a", src := .str "b" } (.integer {})] }
  | _ => { fields := [] }

/-- The entries of the form `cls(src)`. -/
def built (cls : Nat) (kvs : List (Val × Val)) : Option (List (Val × Val)) :=
  match (Call.construct cls (.data (.dict kvs))).run (Path.ops lib) lib lossy 10 St.init with
  | (.ok (.form id), s) => s.forms[id]?.map FormObj.items
  | _ => none

/-- C69 is false of defaults that violate the constraints of their fields: `D({})` has the entry `a` = `"x"`, which
`D({"a": "x"})` refuses (a default is not validated, `pilo/fields.py:583`); and of fields read from other keys than
their names: `R({"b": 1})` has the entry `a`, and `R({"a": 1})` misses `b`. -/
theorem C69_counterexample :
    (∃ kvs, built 0 [] = some kvs ∧ built 0 kvs = none) ∧
    (∃ kvs, built 1 [(.str "b", .int 1)] = some kvs ∧ built 1 kvs = none) :=
  ⟨⟨[(.str "a", .str "x")], by decide +kernel, by decide +kernel⟩,
    ⟨[(.str "a", .int 1)], by decide +kernel, by decide +kernel⟩⟩

end Demo
end Pilo
