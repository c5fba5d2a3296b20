import Verif.Props.Nest

/-!
# C101: unions of plain sources are those of `Union.lean`
-/

namespace Pilo
variable {L : Lib}

theorem PathSt.shift_eq {V : Type} (st : PathSt V) (o : Nat) :
    match st.shift o with
    | .ok st' => ((st.keys.getLast?.map Val.isIntLike).getD false = true) ∧ st' = shiftLast st o
    | .error _ => (st.keys.getLast?.map Val.isIntLike).getD false = false := by
  obtain ⟨r, parts⟩ := st
  rcases List.eq_nil_or_concat parts with rfl | ⟨ps, q, rfl⟩
  · simp [shift, keys]
  · rw [List.concat_eq_append]
    simp only [shift, shiftLast, keys, List.reverse_append, List.reverse_cons, List.reverse_nil, List.nil_append,
      List.singleton_append, List.map_append, List.map_cons, List.map_nil, List.getLast?_append, List.getLast?_singleton,
      Option.some_or, Option.map_some, Option.getD_some]
    cases hq : q.key with
    | int i => simp [Val.index?, Val.isIntLike]
    | bool b => simp [Val.index?, Val.isIntLike]
    | _ => simp [Val.index?, Val.isIntLike]

theorem SPath.endsInInt_eq (p : SPath) : p.endsInInt = (p.keys.getLast?.map Val.isIntLike).getD false := by
  unfold endsInInt
  cases p.keys.getLast? <;> rfl

theorem SPath.shift_eq (p : SPath) (o : Nat) :
    match p.shift o with
    | .ok q => p.endsInInt = true ∧ q = p.shiftLast o
    | .error _ => p.endsInInt = false := by
  rw [endsInInt_eq]
  cases p with
  | dflt cfg st =>
    have := PathSt.shift_eq st o
    simp only [shift, shiftLast]
    cases h : st.shift o <;> rw [h] at this
    · exact this
    · exact ⟨this.1, by rw [this.2]⟩
  | json a b st =>
    have := PathSt.shift_eq st o
    simp only [shift, shiftLast]
    cases h : st.shift o <;> rw [h] at this
    · exact this
    · exact ⟨this.1, by rw [this.2]⟩
  | config cfg st =>
    have := PathSt.shift_eq st o
    simp only [shift, shiftLast]
    cases h : st.shift o <;> rw [h] at this
    · exact this
    · exact ⟨this.1, by rw [this.2]⟩

theorem resolveUnion_same (c : UVal) (k : Val) (kids : List SPath) :
    (SPath.child L).resolveUnion c k kids = resolveUnion c k kids := by
  cases c with
  | join cs => rfl
  | mapping ms =>
    simp only [Child.resolveUnion, resolveUnion, unionGet]
    cases mappingGet ms k <;> rfl
  | val v =>
    simp only [Child.resolveUnion, resolveUnion, unionGet]
    cases getItem v k <;> rfl
  | seq ss =>
    simp only [Child.resolveUnion, resolveUnion, unionGet, Child.seqGet, seqGet]
    cases k.index? with
    | none => rfl
    | some key =>
      dsimp only
      cases seqFind key 0 ss with
      | none => rfl
      | some x =>
        dsimp only
        cases kids[x.1]? with
        | none => rfl
        | some p =>
          have := p.shift_eq x.2
          dsimp only
          cases h : p.shift x.2 with
          | error e =>
            rw [h] at this
            have h' : (SPath.child L).shift p x.2 = .error e := h
            rw [h', this]
            rfl
          | ok q =>
            rw [h] at this
            have h' : (SPath.child L).shift p x.2 = .ok q := h
            rw [h', this.1, this.2]
            rfl

theorem onKid_same {α : Type} (kids : List SPath) (i : Nat) (f : SPath → Except Exc α × SPath) :
    onKid kids i f = onChild kids i f := by
  unfold onKid onChild
  cases kids[i]? <;> rfl

theorem mappingLoop_same (merge : Merge) (cs : List Nat) : ∀ acc kids,
    (SPath.child L).mappingLoop merge cs acc kids = mappingLoop L merge cs acc kids := by
  induction cs with
  | nil => exact fun _ _ => rfl
  | cons i cs ih =>
    intro acc kids
    have e1 : (SPath.child L).exists_ = SPath.exists_ L := rfl
    have e2 : (SPath.child L).isNull = SPath.isNull L := rfl
    have e3 : (SPath.child L).mapping = SPath.mapping L := rfl
    simp only [Child.mappingLoop, mappingLoop, ih, onKid_same, e1, e2, e3]
    rcases onChild kids i (SPath.exists_ L) with ⟨_ | _ | _, k1⟩
    · rfl
    · rfl
    · dsimp only
      rcases onChild k1 i (SPath.isNull L) with ⟨_ | _, k2⟩
      · rfl
      · dsimp only
        rcases onChild k2 i (SPath.mapping L) with ⟨_ | _, k3⟩ <;> rfl

theorem mkMapping_same (cfg : UnionCfg) (merge : Option Merge) (cs : List Nat) (kids : List SPath) :
    (SPath.child L).mkMapping cfg merge cs kids = mkMapping L cfg merge cs kids := by
  simp only [Child.mkMapping, mkMapping, mappingLoop_same]

theorem sequenceLoop_same (cfg : UnionCfg) (cs : List Nat) : ∀ merge acc kids,
    (SPath.child L).sequenceLoop cfg cs merge acc kids = sequenceLoop L cfg cs merge acc kids := by
  induction cs with
  | nil => exact fun _ _ _ => rfl
  | cons i cs ih =>
    intro merge acc kids
    have e1 : (SPath.child L).exists_ = SPath.exists_ L := rfl
    have e2 : (SPath.child L).isNull = SPath.isNull L := rfl
    have e3 : (SPath.child L).sequence = SPath.sequence L := rfl
    have e4 : (SPath.child L).keys = SPath.keys := rfl
    simp only [Child.sequenceLoop, sequenceLoop, ih, onKid_same, e1, e2, e3, e4]
    rcases onChild kids i (SPath.exists_ L) with ⟨_ | _ | _, k1⟩
    · rfl
    · rfl
    · dsimp only
      rcases onChild k1 i (SPath.isNull L) with ⟨_ | _ | _, k2⟩
      · rfl
      · dsimp only
        rcases onChild k2 i (SPath.sequence L) with ⟨_ | _, k3⟩
        · rfl
        · dsimp only
          cases acc with
          | nil => rfl
          | cons a as =>
            dsimp only
            cases merge.getD (sequenceMode cfg ((Option.map (fun p => p.keys.length) k3[i]?).getD 0)) <;> rfl
      · rfl

/-- A `UnionPath` over plain paths. -/
def UPath.toOf (p : UPath) : UnionOf SPath := ⟨p.cfg, p.st, p.kids⟩

/-- Seen from the other model. -/
def UPath.lift {α : Type} (r : Except Exc α × UPath) : Except Exc α × UnionOf SPath := (r.1, r.2.toOf)

namespace UPath

theorem uvalue_same (p : UPath) : p.toOf.uvalue (SPath.child L) = lift p.uvalue := by
  unfold UnionOf.uvalue uvalue
  simp only [resolveUnion_same]
  rfl

theorem popAll_same (kids : List SPath) : UnionOf.popAll (SPath.child L) kids = popAll kids := by
  induction kids with
  | nil => rfl
  | cons c cs ih =>
    have e : (SPath.child L).pop c = c.pop := rfl
    simp only [UnionOf.popAll, popAll, ih, e]
    cases c.pop with
    | error e => rfl
    | ok c' =>
      dsimp only
      cases popAll cs <;> rfl

/-- C101: over plain sources, the union of the nested model is the union of `Union.lean`: it opens, moves and answers
alike. -/
theorem C101_union_same (p : UPath) :
    (∀ k, p.toOf.app (SPath.child L) k = (p.append k).toOf) ∧
    p.toOf.pop (SPath.child L) = p.pop.map toOf ∧
    p.toOf.value (SPath.child L) = lift p.value ∧
    p.toOf.exists_ (SPath.child L) = lift p.exists_ ∧
    p.toOf.isNull (SPath.child L) = lift p.isNull ∧
    p.toOf.mapping (SPath.child L) = lift (p.mapping L) ∧
    p.toOf.sequence (SPath.child L) = lift (p.sequence L) ∧
    (∀ ty, p.toOf.primitive (SPath.child L) ty = lift (p.primitive L ty)) ∧
    p.toOf.joinPath (SPath.child L) = (p.joinPath L).map (·.map toOf) ∧
    ∀ cfg kids, UnionOf.make (SPath.child L) cfg kids = (mk' L cfg kids).map toOf := by
  refine ⟨fun _ => rfl, ?_, ?_, ?_, ?_, ?_, ?_, fun ty => ?_, ?_, fun cfg kids => ?_⟩
  · simp only [UnionOf.pop, pop, popAll_same, toOf]
    cases p.st.pop with
    | error e => rfl
    | ok st =>
      dsimp only
      cases popAll p.kids <;> rfl
  · simp only [UnionOf.value, value, uvalue_same, lift]
    rcases p.uvalue with ⟨_ | _, _⟩ <;> rfl
  · simp only [UnionOf.exists_, exists_, uvalue_same, lift]
    rcases p.uvalue with ⟨_ | _, _⟩ <;> rfl
  · simp only [UnionOf.isNull, isNull, uvalue_same, lift]
    rcases p.uvalue with ⟨_ | _, _⟩ <;> rfl
  · simp only [UnionOf.mapping, mapping, uvalue_same, lift, mkMapping_same]
    rcases p.uvalue with ⟨_ | v, q⟩
    · rfl
    · cases v with
      | join cs =>
        dsimp only [toOf]
        rcases mkMapping L q.cfg none cs q.kids with ⟨_ | _, _⟩ <;> rfl
      | _ => rfl
  · simp only [UnionOf.sequence, sequence, uvalue_same, lift, sequenceLoop_same]
    rcases p.uvalue with ⟨_ | v, q⟩
    · rfl
    · cases v with
      | join cs =>
        dsimp only [toOf]
        rcases sequenceLoop L q.cfg cs none [] q.kids with ⟨_ | _, _⟩ <;> rfl
      | _ => rfl
  · simp only [UnionOf.primitive, primitive, uvalue_same, lift, onKid_same]
    rcases p.uvalue with ⟨_ | v, q⟩
    · rfl
    · cases v with
      | join cs =>
        cases cs with
        | nil => rfl
        | cons c cs =>
          dsimp only [toOf]
          have e : (SPath.child L).primitive ty = SPath.primitive L ty := rfl
          rw [e]
          rcases onChild q.kids c (SPath.primitive L ty) with ⟨_ | _, _⟩ <;> rfl
      | _ => rfl
  · simp only [UnionOf.joinPath, joinPath, uvalue_same, lift, mkMapping_same]
    rcases p.uvalue with ⟨_ | v, q⟩
    · rfl
    · cases v with
      | join cs =>
        dsimp only [toOf]
        rcases mkMapping L q.cfg none cs q.kids with ⟨_ | _, kids⟩
        · rfl
        · dsimp only
          have e : UnionOf.prefixKeys (SPath.child L) cs kids = prefixKeys cs kids := by
            cases cs with
            | nil => rfl
            | cons c cs =>
              simp only [UnionOf.prefixKeys, prefixKeys]
              cases kids[c]? <;> rfl
          rw [e]
          cases cs' : (prefixKeys cs kids) <;> rfl
      | _ => rfl
  · simp only [UnionOf.make, mk', mkMapping_same]
    split
    · rfl
    · rcases mkMapping L cfg (some .combine) (List.range kids.length) kids with ⟨_ | _, _⟩ <;> rfl

end UPath
end Pilo
