import Verif.Field

/-!
# Predicates on whole field trees
-/

namespace Pilo

mutual
/-- Every field of the tree satisfies `p`. -/
inductive Field.All (p : Field → Prop) : Field → Prop where
  | mk {c : FieldCore} {k : Kind} (h : p (.mk c k)) (hk : Kind.All p k) : Field.All p (.mk c k)
inductive Kind.All (p : Field → Prop) : Kind → Prop where
  | base : Kind.All p .base
  | string {c : StrCfg} : Kind.All p (.string c)
  | integer {c : NumCfg} : Kind.All p (.integer c)
  | float {c : NumCfg} : Kind.All p (.float c)
  | decimal {c : NumCfg} : Kind.All p (.decimal c)
  | boolean : Kind.All p .boolean
  | date {c : DateCfg} : Kind.All p (.date c)
  | time {c : DateCfg} : Kind.All p (.time c)
  | datetime {c : DateCfg} : Kind.All p (.datetime c)
  | tuple {fs : List Field} (h : ∀ f ∈ fs, Field.All p f) : Kind.All p (.tuple fs)
  | list {f : Field} {lo hi : Option Nat} {a : Bool} (h : Field.All p f) : Kind.All p (.list f lo hi a)
  | dict {kf vf : Field} {kfl : Option (Hook (Val → Prog))} {r : Required} {m : Option Nat}
      (hk : Field.All p kf) (hv : Field.All p vf) : Kind.All p (.dict kf vf kfl r m)
  | code : Kind.All p .code
  | uuid : Kind.All p .uuid
  | subform {cls : Nat} {reset : Bool} {u : Unmapped} (h : Unmapped.All p u) :
      Kind.All p (.subform cls reset u)
  | poly {tf : Field} {pc : Nat} {ts : List (Val × Nat)} {reset : Bool} {u : Unmapped}
      (ht : Field.All p tf) (h : Unmapped.All p u) : Kind.All p (.poly tf pc ts reset u)
  | group {fs : List (GSrc × Field)} (h : ∀ x ∈ fs, Field.All p x.2) : Kind.All p (.group fs)
inductive Unmapped.All (p : Field → Prop) : Unmapped → Prop where
  | str {u : UnmappedStr} : Unmapped.All p (.str u)
  | value {vf : Field} (h : Field.All p vf) : Unmapped.All p (.value vf)
  | pair {kf vf : Field} (hk : Field.All p kf) (hv : Field.All p vf) : Unmapped.All p (.pair kf vf)
end

theorem Field.All.node {p : Field → Prop} {f : Field} (h : f.All p) : p f := by
  cases h; assumption

theorem Field.All.kind {p : Field → Prop} {f : Field} (h : f.All p) : f.kind.All p := by
  cases h; assumption

/-- Every field of every class satisfies `p`. -/
def Classes.All (p : Field → Prop) (C : Classes) : Prop := ∀ cls, ∀ f ∈ (C cls).fields, f.All p

end Pilo
