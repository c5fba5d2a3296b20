import Verif.Props.Computed
import Verif.Props.ReadDemo

/-!
# Examples for C80
-/

namespace Pilo
namespace ComputedDemo
open Demo ReadDemo

/-- The product of two integers. -/
def times : Val → Val → Val
  | .int a, .int b => .int (a * b)
  | _, _ => .none

/-- The next integer. -/
def next : Val → Val
  | .int a => .int (a + 1)
  | v => v

/-- `total = Integer()`, computed as `self.price * self.qty`. -/
def total : Field :=
  computed "total" (.integer {}) fun f => .bind (.getattr f "price") fun p => .bind (.getattr f "qty") fun q => .ret (times p q)

/-- `qty = Integer()` with `self.price` by default. -/
def qty : Field :=
  .mk { name := some "qty", src := .str "qty", default := .hook { body := fun f => .getattr f "price" } } (.integer {})

/-- `price = Integer()`, munged to the next integer. -/
def price : Field :=
  .mk { name := some "price", src := .str "price", munge := some { body := fun _ v => .ret (next v) } } (.integer {})

/-- `class Order: total; qty; price`. -/
def forward : Classes := fun _ => { fields := [total, qty, price] }

/-- `class Order: price; qty; total`. -/
def backward : Classes := fun _ => { fields := [price, qty, total] }

def order : SrcArg Path := .data (.dict [(.str "price", .str "7")])

/-- A thread with an empty form. -/
def s0 : St Path := holding 0 []

theorem price_wired (n : Nat) : Wired (forward 0).field? 0 (n + 1) price := by
  refine ⟨⟨rfl, ?_, (by intro h e; cases e), (by intro h e; cases e), trivial⟩, ⟨⟨.inl rfl, rfl, rfl, rfl, rfl, rfl, rfl, (by intro _ _ _ _ _ e; cases e)⟩, trivial⟩, fun h => by cases h⟩
  intro h e
  cases e
  exact ⟨rfl, fun v => .ret _⟩

theorem qty_wired (n : Nat) : Wired (forward 0).field? 0 (n + 2) qty := by
  refine ⟨⟨rfl, (by intro h e; cases e), (by intro h e; cases e), (by intro h e; cases e), ?_⟩, ⟨⟨.inl rfl, rfl, rfl, rfl, rfl, rfl, rfl, (by intro _ _ _ _ _ e; cases e)⟩, trivial⟩, fun h => by cases h⟩
  exact ⟨rfl, .field ⟨price, rfl, price_wired n⟩⟩

theorem total_wired (n : Nat) : Wired (forward 0).field? 0 (n + 3) total :=
  ⟨⟨rfl, (by intro h e; cases e), (by intro h e; cases e), (by intro h e; cases e), trivial⟩, rfl,
    .bind (.field ⟨price, rfl, price_wired _⟩) fun _ => .bind (.field ⟨qty, rfl, qty_wired n⟩) fun _ => .ret _⟩

theorem wires : Form.Wires forward [] 5 0 0 false s0 := by
  refine ⟨by decide +kernel, by decide +kernel, ?_, .inr ?_⟩
  · intro f hf _
    simp only [forward, List.mem_cons, List.not_mem_nil, or_false] at hf
    rcases hf with rfl | rfl | rfl
    · exact total_wired 2
    · exact qty_wired 3
    · exact price_wired 4
  · intro f _ _ name _
    rfl

/-- The state in which the fields of `Order` are mapped. -/
def s1 : St Path where
  stack := [formFrame 0, { src := .source 0, errors := some 0 }, rootFrame]
  paths := [(ops.mapping (ops.native (.dict [(.str "price", .str "7")]) none)).2]
  errs := [⟨false, []⟩]
  forms := [⟨0, [], none⟩]

theorem start_eq {fr as s2 s3 s'} {st : St Path} {C : Classes} {rec : Rec Path} {e : Nat}
    (c : Course ops C rec 0 0 order [] false (.str .ignore) false s0 e fr as st s2 s3 s') : st = s1 := by
  obtain ⟨r, p, -, -, h⟩ := c.start
  rcases h with ⟨h, -⟩ | ⟨-, h1, h2, h3, h4⟩
  · cases h
  · cases h4
    have hf := c.errors
    have he := c.newList
    have h5 := c.stack1
    have h6 := c.errs1
    have h7 := c.forms1
    rw [h1, h2, he] at hf
    rw [hf] at h5
    obtain ⟨a, b, c, d⟩ := st
    subst h3 h5 h6 h7
    rfl

theorem firsts : (mapField ops lib forward 5 total .NONE s1).1 = .ok (.int 64) ∧
    (mapField ops lib forward 5 qty .NONE s1).1 = .ok (.int 8) ∧ (mapField ops lib forward 5 price .NONE s1).1 = .ok (.int 8) := by
  decide +kernel

theorem stops : Form.Stops ops lib forward 5 0 0 s1 := by
  intro name c hc _
  have hc : c ∈ (forward 0).fields := List.mem_of_find?_eq_some hc
  simp only [forward, List.mem_cons, List.not_mem_nil, or_false] at hc
  obtain ⟨h1, h2, h3⟩ := firsts
  rcases hc with rfl | rfl | rfl
  · rw [h1]; intro h; cases h
  · rw [h2]; intro h; cases h
  · rw [h3]; intro h; cases h

theorem mapped : ∃ e s', Form.map ops lib forward 5 0 order [] false (.str .ignore) false s0 = (.ok e, s') ∧
    s'.forms.map FormObj.items = [[(.str "total", .int 64), (.str "qty", .int 8), (.str "price", .int 8)]] := by
  have h : (Form.map ops lib forward 5 0 order [] false (.str .ignore) false s0).1 = .ok 0 ∧
    (Form.map ops lib forward 5 0 order [] false (.str .ignore) false s0).2.forms.map FormObj.items =
      [[(.str "total", .int 64), (.str "qty", .int 8), (.str "price", .int 8)]] := by decide +kernel
  revert h
  generalize Form.map ops lib _ _ 0 order [] false (.str .ignore) false s0 = x
  rintro ⟨h1, h2⟩
  exact ⟨0, x.2, Prod.ext h1 rfl, h2⟩

theorem mapped' : ∃ e s', Form.map ops lib backward 7 0 order [] false (.str .ignore) false s0 = (.ok e, s') ∧
    s'.forms.map FormObj.items = [[(.str "price", .int 8), (.str "qty", .int 8), (.str "total", .int 64)]] := by
  have h : (Form.map ops lib backward 7 0 order [] false (.str .ignore) false s0).1 = .ok 0 ∧
    (Form.map ops lib backward 7 0 order [] false (.str .ignore) false s0).2.forms.map FormObj.items =
      [[(.str "price", .int 8), (.str "qty", .int 8), (.str "total", .int 64)]] := by decide +kernel
  revert h
  generalize Form.map ops lib _ _ 0 order [] false (.str .ignore) false s0 = x
  rintro ⟨h1, h2⟩
  exact ⟨0, x.2, Prod.ext h1 rfl, h2⟩

/-- C80 for `Order`: in the state `s1` each field, with what its hooks read replaced by the values of the fields, has its value. -/
example : ∃ (fr : Frame) (as : List (Attempt Path)) (s2 s3 s' : St Path) (e : Nat),
    Course ops forward (mapField ops lib forward 5) 0 0 order [] false (.str .ignore) false s0 e fr as s1 s2 s3 s' ∧ as.length = 3 ∧
    ∀ a ∈ as, ∃ name, a.field.name = some name ∧ Form.seen ops lib forward 5 0 0 s1 name = .ok a.value ∧
      (mapField ops lib forward 5 (a.field.settle (Form.seen ops lib forward 5 0 0 s1) 0) .NONE s1).1 = .ok a.value := by
  obtain ⟨e, s', h, -⟩ := mapped
  obtain ⟨fr, as, st, s2, s3, c, hall⟩ := C80_computed (L := lib) (src := order) 5 trivial trivial (holding_inv 0 []) (holding_live 0 []) rfl wires h
  have := start_eq c
  subst this
  refine ⟨fr, as, s2, s3, s', e, c, ?_, hall stops⟩
  have := congrArg List.length c.fields
  rw [List.length_map] at this
  exact this

/-- C80 for `Order` with its fields in the opposite order. -/
example : ∃ (as as' : List (Attempt Path)), as.map Attempt.field = [total, qty, price] ∧ as'.map Attempt.field = [price, qty, total] ∧
    ∀ a ∈ as, ∀ a' ∈ as', a'.field = a.field → a'.value = a.value := by
  obtain ⟨e, s', h, -⟩ := mapped
  obtain ⟨e', s'', h', -⟩ := mapped'
  obtain ⟨fr, as, st, s2, s3, fr', as', st', s2', s3', c, c', -, hall⟩ := C80_order (L := lib) (src := order) 5 (show 5 ≤ 7 by decide) trivial trivial
    (fun xs => ⟨(by intro h; cases h), (by intro h; cases h)⟩) (holding_inv 0 []) (holding_live 0 []) rfl wires
    (show (backward 0).fields.Perm (forward 0).fields from (List.reverse_perm [total, qty, price])) h h'
  have := start_eq c
  subst this
  exact ⟨as, as', c.fields, c'.fields, hall stops⟩

/-- Without `reset`, when the form has a value for `price` already, the order matters: `total` is computed from the old or from the new
value. -/
theorem C80_stale_counterexample :
    (Form.map ops lib forward 5 0 order [] false (.str .ignore) false (holding 0 [(.str "price", .int 3)])).2.forms.map
      (fun o => dictGet? o.items (.str "total")) = [some (.int 9)] ∧
    (Form.map ops lib backward 5 0 order [] false (.str .ignore) false (holding 0 [(.str "price", .int 3)])).2.forms.map
      (fun o => dictGet? o.items (.str "total")) = [some (.int 64)] := by
  decide +kernel

end ComputedDemo
end Pilo
