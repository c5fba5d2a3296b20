import Verif.Sub
import Verif.Props.Resolve

/-!
# C39–C42: union sources
-/

namespace Pilo
variable {L : Lib}

/-! ## What has been read stays as it is -/

namespace PathSt
variable {V σ : Type}

/-- The value of the path is at hand: it is the root of an empty path, or cached in the last part. -/
def Held (st : PathSt V) (v : V) : Prop :=
  (st.parts = [] ∧ st.root = v) ∨ ∃ pre q, st.parts = pre ++ [q] ∧ q.raw = false ∧ q.cache = some v

theorem Held.value {R : List Val → σ → V → Val → Except Exc V × σ} {isN : V → Bool} {st : PathSt V} {v : V}
    (h : st.Held v) (s : σ) : PathSt.value R isN s st = (.ok v, s, st) := by
  obtain ⟨root, parts⟩ := st
  rcases h with ⟨h1, h2⟩ | ⟨pre, q, h1, h2, h3⟩
  · simp only at h1 h2
    subst h1 h2
    rfl
  · simp only at h1
    subst h1
    have : scan (pre ++ [q]).reverse = .ok (some (pre.length + 1, v)) := by simp [scan, h2, h3]
    unfold PathSt.value
    simp only [this]
    rw [List.drop_of_length_le (by simp), List.take_of_length_le (by simp)]
    simp [fill]

/-- The value of a path extended by a key is resolved from the value at hand. -/
theorem Held.append_value {R : List Val → σ → V → Val → Except Exc V × σ} {isN : V → Bool} {st : PathSt V} {v : V}
    (h : st.Held v) {k : Val} (hk : (k.isIntLike || k.isStr) = true) (s : σ) :
    PathSt.value R isN s (st.append k) = match R (st.keys ++ [k]) s v k with
      | (.error e, s') => (.error e, s', st.append k)
      | (.ok w, s') => (.ok w, s', (st.append k).setValue w) := by
  have hr : (Part.ofKey k : Part V).raw = false := by simp only [Part.ofKey, hk]; rfl
  have hks : (st.append k).keys = st.keys ++ [k] := append_keys st k
  have hset : ∀ w : V, (st.append k).setValue w
      = { st with parts := st.parts ++ [{ (Part.ofKey k : Part V) with cache := some w }] } := by
    intro w; simp [setValue, append]
  unfold PathSt.value
  rw [hks]
  have hs : scan (st.append k).parts.reverse = scan st.parts.reverse := by
    simp only [append, List.reverse_append, List.reverse_cons, List.reverse_nil, List.nil_append, List.cons_append]
    rw [scan.eq_def]
    simp only [hr, Bool.false_eq_true, if_false]
    rfl
  rw [hs]
  rcases h with ⟨h1, h2⟩ | ⟨pre, q, h1, h2, h3⟩
  · have : scan st.parts.reverse = .ok none := by rw [h1]; rfl
    rw [this]
    simp only [hset]
    have hp : (st.append k).parts = [Part.ofKey k] := by simp [append, h1]
    have hroot : (st.append k).root = v := h2
    rw [hp, hroot]
    simp only [fill, h1, List.nil_append]
    have hkey : (Part.ofKey k : Part V).key = k := rfl
    rw [hkey]
    rcases R (st.keys ++ [k]) s v k with ⟨e | w, s'⟩
    · simp only [append, h1, List.nil_append, h2]
    · dsimp only
      split <;> simp [h2]
  · have : scan st.parts.reverse = .ok (some (pre.length + 1, v)) := by rw [h1]; simp [scan, h2, h3]
    rw [this]
    simp only [hset]
    have hl : st.parts.length = pre.length + 1 := by rw [h1]; simp
    have hp : (st.append k).parts = st.parts ++ [Part.ofKey k] := rfl
    rw [hp, ← hl, List.drop_left, List.take_left]
    simp only [fill]
    have hkey : (Part.ofKey k : Part V).key = k := rfl
    rw [hkey]
    rcases R (st.keys ++ [k]) s v k with ⟨e | w, s'⟩
    · rfl
    · dsimp only
      split <;> rfl

theorem Held.setValue {st : PathSt V} {w v : V} (h : st.Held w) : (st.setValue v).Held v := by
  rcases h with ⟨h1, h2⟩ | ⟨pre, q, h1, h2, h3⟩
  · exact .inl (by simp [PathSt.setValue, h1])
  · exact .inr ⟨pre, { q with cache := some v }, by simp [PathSt.setValue, h1], h2, rfl⟩

theorem append_setValue_held (st : PathSt V) {k : Val} (hk : (k.isIntLike || k.isStr) = true) (v : V) :
    ((st.append k).setValue v).Held v :=
  .inr ⟨st.parts, { (Part.ofKey k : Part V) with cache := some v }, by simp [PathSt.setValue, append],
    by simp [Part.ofKey, hk], rfl⟩

theorem fill_held {R : List Val → σ → V → Val → Except Exc V × σ} {isN : V → Bool} {ks : List Val}
    (ps : List (Part V)) : ∀ (s : σ) (v w : V), (fill R isN ks s v ps).1 = .ok w → isN w = false → ps ≠ [] →
    ∃ pre q, (fill R isN ks s v ps).2.2 = pre ++ [q] ∧ q.cache = some w := by
  induction ps with
  | nil => intro _ _ _ _ _ h; exact (h rfl).elim
  | cons p ps ih =>
    intro s v w h hn _
    unfold fill at h ⊢
    split at h
    · cases h
    · rename_i x s' hx
      split at h
      · next hxn => cases h; rw [hn] at hxn; cases hxn
      · next hxn =>
        simp only [hxn]
        cases ps with
        | nil =>
          simp only [fill] at h ⊢
          cases h
          exact ⟨[], _, rfl, rfl⟩
        | cons p' ps =>
          obtain ⟨pre, q, h1, h2⟩ := ih s' x w h hn (by simp)
          exact ⟨{ p with cache := some x } :: pre, q, by simp [h1], h2⟩

/-- Once read, a value other than the absent marker is at hand. -/
theorem value_held {R : List Val → σ → V → Val → Except Exc V × σ} {isN : V → Bool} {s : σ} {st : PathSt V} {w : V}
    (h : (PathSt.value R isN s st).1 = .ok w) (hn : isN w = false) : (PathSt.value R isN s st).2.2.Held w := by
  have hsig := value_sig R isN s st
  have hscan := scan_spec st.parts.reverse
  have hraw : ∀ pre q, (PathSt.value R isN s st).2.2.parts = pre ++ [q] → q.raw = false := by
    intro pre q hq
    have h1 : st.parts.map (fun q => (q.key, q.raw)) = (pre ++ [q]).map (fun q => (q.key, q.raw)) := by
      have := hsig
      simp only [sig, hq] at this
      exact this.symm
    have h2 : ∃ pre' q', st.parts = pre' ++ [q'] ∧ q'.raw = q.raw := by
      rcases List.eq_nil_or_concat st.parts with h0 | ⟨pre', q', h0⟩
      · rw [h0] at h1; simp at h1
      · refine ⟨pre', q', by rw [h0]; simp, ?_⟩
        rw [h0] at h1
        simp only [List.map_append, List.map_cons, List.map_nil, List.concat_eq_append] at h1
        have := (List.append_inj_right' h1 rfl)
        simp only [List.cons.injEq, Prod.mk.injEq, and_true] at this
        exact this.2
    obtain ⟨pre', q', h3, h4⟩ := h2
    rw [← h4]
    unfold PathSt.value at h
    rw [h3] at h
    simp only [List.reverse_append, List.reverse_cons, List.reverse_nil, List.nil_append, List.cons_append] at h
    cases hr : q'.raw with
    | false => rfl
    | true =>
      unfold scan at h
      simp [hr] at h
  have key : st.parts = [] ∨ ∃ pre q, (PathSt.value R isN s st).2.2.parts = pre ++ [q] ∧ q.cache = some w := by
    by_cases hp : st.parts = []
    · exact .inl hp
    refine .inr ?_
    unfold PathSt.value at h ⊢
    cases hs : scan st.parts.reverse with
    | error e => rw [hs] at h; cases h
    | ok o =>
      rw [hs] at h hscan
      rcases o with _ | ⟨i, v⟩
      · exact fill_held st.parts _ _ w h hn hp
      · dsimp only at h ⊢
        by_cases h0 : st.parts.drop i = []
        · rw [h0] at h ⊢
          simp only [fill] at h ⊢
          cases h
          obtain ⟨pre, q, post, h2, h3, h4, h5, h6⟩ := hscan
          have h7 : st.parts = post.reverse ++ q :: pre.reverse := by
            rw [← List.reverse_reverse st.parts, h2]; simp
          have h8 : pre = [] := by
            have := congrArg List.length h0
            rw [h7, h6] at this
            simp at this
            exact List.length_eq_zero_iff.1 (by omega)
          subst h8
          refine ⟨post.reverse, q, ?_, h5⟩
          rw [List.append_nil, List.take_of_length_le (by rw [h7, h6]; simp), h7]
          rfl
        · obtain ⟨pre, q, h1, h2⟩ := fill_held (st.parts.drop i) _ _ w h hn h0
          exact ⟨st.parts.take i ++ pre, q, by rw [h1]; simp, h2⟩
  rcases key with hp | ⟨pre, q, h1, h2⟩
  · refine .inl ?_
    obtain ⟨root, parts⟩ := st
    simp only at hp
    subst hp
    have : PathSt.value R isN s (⟨root, []⟩ : PathSt V) = (.ok root, s, ⟨root, []⟩) := rfl
    rw [this] at h ⊢
    cases h
    exact ⟨rfl, rfl⟩
  · exact .inr ⟨pre, q, h1, hraw pre q h1, h2⟩

end PathSt

/-! ## What the members of a union report -/

/-- Whatever is read from a path at which there is something, reading leaves it as it is from then on, and the
answers stay the same. -/
theorem SPath.steady {q : SPath} (h : (q.exists_ L).1 = .ok true) :
    ∃ q' : SPath, q'.keys = q.keys ∧
      (∀ {β : Type} (bD : DefaultCfg → List Val → Val → Except Exc β) (bJ : Bool → Val → Except Exc β)
        (bC : ConfigCfg → List Val → CfgVal → Except Exc β), (q.withValue L bD bJ bC).2 = q' ∧
        q'.withValue L bD bJ bC = ((q.withValue L bD bJ bC).1, q')) := by
  cases q with
  | dflt cfg st =>
    rcases e : SPath.valueDflt L cfg st with ⟨_ | v, st'⟩
    · simp only [exists_, withValue, e] at h; cases h
    · have hn : v.isNONE = false := by
        simp only [exists_, withValue, e] at h
        cases hv : v.isNONE <;> simp [hv] at h ⊢
      have e1 : SPath.valueDflt L cfg st = ((PathSt.value (fun ks (_ : Unit) c k => (resolveDefault L cfg ks c k, ()))
        Val.isNONE () st).1, (PathSt.value (fun ks (_ : Unit) c k => (resolveDefault L cfg ks c k, ()))
        Val.isNONE () st).2.2) := rfl
      rw [e] at e1
      obtain ⟨h5, h6⟩ := Prod.mk.inj e1
      have h7 := PathSt.value_held h5.symm hn
      have h8 := PathSt.value_keys (fun ks (_ : Unit) c k => (resolveDefault L cfg ks c k, ())) Val.isNONE () st
      rw [← h6] at h7 h8
      have e' : SPath.valueDflt L cfg st' = (.ok v, st') := by unfold SPath.valueDflt; rw [h7.value]
      exact ⟨.dflt cfg st', h8, fun bD bJ bC => by simp only [withValue, e, e', h8, true_and]⟩
  | json s l st =>
    rcases e : SPath.valueJson st with ⟨_ | v, st'⟩
    · simp only [exists_, withValue, e] at h; cases h
    · have hn : v.isNONE = false := by
        simp only [exists_, withValue, e] at h
        cases hv : v.isNONE <;> simp [hv] at h ⊢
      have e1 : SPath.valueJson st = ((PathSt.value (fun _ (_ : Unit) c k => (.ok (resolveJson c k), ()))
        Val.isNONE () st).1, (PathSt.value (fun _ (_ : Unit) c k => (.ok (resolveJson c k), ()))
        Val.isNONE () st).2.2) := rfl
      rw [e] at e1
      obtain ⟨h5, h6⟩ := Prod.mk.inj e1
      have h7 := PathSt.value_held h5.symm hn
      have h8 := PathSt.value_keys (fun _ (_ : Unit) c k => (.ok (resolveJson c k), ())) Val.isNONE () st
      rw [← h6] at h7 h8
      have e' : SPath.valueJson st' = (.ok v, st') := by unfold SPath.valueJson; rw [h7.value]
      exact ⟨.json s l st', h8, fun bD bJ bC => by simp only [withValue, e, e', true_and]⟩
  | config cfg st =>
    rcases e : SPath.valueCfg L cfg st with ⟨_ | v, st'⟩
    · simp only [exists_, withValue, e] at h; cases h
    · have hn : v.isNONE = false := by
        simp only [exists_, withValue, e] at h
        cases hv : v.isNONE <;> simp [hv] at h ⊢
      have e1 : SPath.valueCfg L cfg st = ((PathSt.value (fun _ (_ : Unit) c k => (resolveConfig L cfg c k, ()))
        CfgVal.isNONE () st).1, (PathSt.value (fun _ (_ : Unit) c k => (resolveConfig L cfg c k, ()))
        CfgVal.isNONE () st).2.2) := rfl
      rw [e] at e1
      obtain ⟨h5, h6⟩ := Prod.mk.inj e1
      have h7 := PathSt.value_held h5.symm hn
      have h8 := PathSt.value_keys (fun _ (_ : Unit) c k => (resolveConfig L cfg c k, ())) CfgVal.isNONE () st
      rw [← h6] at h7 h8
      have e' : SPath.valueCfg L cfg st' = (.ok v, st') := by unfold SPath.valueCfg; rw [h7.value]
      exact ⟨.config cfg st', h8, fun bD bJ bC => by simp only [withValue, e, e', h8, true_and]⟩

/-- What a source says at its current path: nothing is there; it cannot be read; null; or it is, or is not, a
mapping (a sequence) with the given keys (length). -/
inductive Report (α : Type) where
  | absent
  | null
  | fails (e : Exc)
  | gives (a : α)

/-- The answers of a source when asked for a mapping: `path.exists`, `path.is_null`, `path.mapping()`. -/
def SPath.keysReport (L : Lib) (q : SPath) : Report (List Val) :=
  match (q.exists_ L).1 with
  | .error e => .fails e
  | .ok false => .absent
  | .ok true => match (q.isNull L).1 with
    | .error e => .fails e
    | .ok true => .null
    | .ok false => match (q.mapping L).1 with
      | .error e => .fails e
      | .ok kv => .gives kv.ks

/-- The answers of a source when asked for a sequence: `path.exists`, `path.is_null`, `path.sequence()`. -/
def SPath.lenReport (L : Lib) (q : SPath) : Report Nat :=
  match (q.exists_ L).1 with
  | .error e => .fails e
  | .ok false => .absent
  | .ok true => match (q.isNull L).1 with
    | .error e => .fails e
    | .ok true => .null
    | .ok false => match (q.sequence L).1 with
      | .error e => .fails e
      | .ok n => .gives n

/-- The sources `cs` of a union, in order, with what they report. -/
def reports {α : Type} (f : SPath → Report α) (kids : List SPath) (cs : List Nat) : List (Nat × Report α) :=
  cs.filterMap fun c => (kids[c]?).map fun q => (c, f q)

/-- The sources that contribute. -/
def given {α : Type} (rs : List (Nat × Report α)) : List (Nat × α) :=
  rs.filterMap fun r => match r.2 with
    | .gives a => some (r.1, a)
    | _ => none

/-- What a merge of the reports gives.  `combine`: every contribution; `first`: that of the first source at
which there is something; `last`: the last contribution.  Reading fails with the first failure met. -/
inductive Merged {α : Type} : Merge → List (Nat × Report α) → Except Exc (List (Nat × α)) → Prop where
  | combine {rs : List (Nat × Report α)} (h : ∀ r ∈ rs, ∀ e, r.2 ≠ .fails e) : Merged .combine rs (.ok (given rs))
  | last {rs : List (Nat × Report α)} (h : ∀ r ∈ rs, ∀ e, r.2 ≠ .fails e) :
      Merged .last rs (.ok (given rs).getLast?.toList)
  | fails {m : Merge} {pre post : List (Nat × Report α)} {c : Nat} {e : Exc} (hm : m = .combine ∨ m = .last)
      (h : ∀ r ∈ pre, ∀ e, r.2 ≠ .fails e) : Merged m (pre ++ (c, .fails e) :: post) (.error e)
  | nothing {rs : List (Nat × Report α)} (h : ∀ r ∈ rs, r.2 = .absent) : Merged .first rs (.ok [])
  | null {pre post : List (Nat × Report α)} {c : Nat} (h : ∀ r ∈ pre, r.2 = .absent) :
      Merged .first (pre ++ (c, .null) :: post) (.ok [])
  | first {pre post : List (Nat × Report α)} {c : Nat} {a : α} (h : ∀ r ∈ pre, r.2 = .absent) :
      Merged .first (pre ++ (c, .gives a) :: post) (.ok [(c, a)])
  | failsFirst {pre post : List (Nat × Report α)} {c : Nat} {e : Exc} (h : ∀ r ∈ pre, r.2 = .absent) :
      Merged .first (pre ++ (c, .fails e) :: post) (.error e)

theorem onChild_some {α : Type} {kids : List SPath} {c : Nat} {q : SPath} (h : kids[c]? = some q)
    (f : SPath → Except Exc α × SPath) : onChild kids c f = ((f q).1, kids.set c (f q).2) := by
  simp only [onChild, h]

theorem set_get {kids : List SPath} {c : Nat} {q q' : SPath} (h : kids[c]? = some q) :
    (kids.set c q')[c]? = some q' := by
  have : c < kids.length := (List.getElem?_eq_some_iff.1 h).1
  simp [this]

theorem reports_set {α : Type} {f : SPath → Report α} {kids : List SPath} {c : Nat} {q : SPath} {cs : List Nat}
    (h : c ∉ cs) : reports f (kids.set c q) cs = reports f kids cs := by
  induction cs with
  | nil => rfl
  | cons d cs ih =>
    simp only [List.mem_cons, not_or] at h
    have h1 : (kids.set c q)[d]? = kids[d]? := by rw [List.getElem?_set_ne h.1]
    have h2 := ih h.2
    unfold reports at h2 ⊢
    simp only [List.filterMap_cons, h1, h2]

theorem reports_cons {α : Type} {f : SPath → Report α} {kids : List SPath} {c : Nat} {q : SPath} {cs : List Nat}
    (h : kids[c]? = some q) : reports f kids (c :: cs) = (c, f q) :: reports f kids cs := by
  simp [reports, h]

/-- One source in the loop of `Mapping.__init__`. -/
theorem mappingLoop_step {m : Merge} {kids : List SPath} {c : Nat} {q : SPath} (h : kids[c]? = some q)
    (rest : List Nat) (acc : List (Nat × List Val)) :
    mappingLoop L m (c :: rest) acc kids = match q.keysReport L with
      | .absent => mappingLoop L m rest acc (kids.set c (q.exists_ L).2)
      | .fails e => (.error e, kids.set c (q.exists_ L).2)
      | .null => if m = .first then (.ok acc, kids.set c (q.exists_ L).2)
        else mappingLoop L m rest acc (kids.set c (q.exists_ L).2)
      | .gives ks => if m = .first then (.ok (acc ++ [(c, ks)]), kids.set c (q.exists_ L).2)
        else if acc.isEmpty then mappingLoop L m rest (acc ++ [(c, ks)]) (kids.set c (q.exists_ L).2)
        else if m = .combine then mappingLoop L m rest (acc ++ [(c, ks)]) (kids.set c (q.exists_ L).2)
        else if m = .last then mappingLoop L m rest [(c, ks)] (kids.set c (q.exists_ L).2)
        else mappingLoop L m rest acc (kids.set c (q.exists_ L).2) := by
  rw [mappingLoop, onChild_some h]
  unfold SPath.keysReport
  cases he : (q.exists_ L).1 with
  | error e => rfl
  | ok b =>
    cases b with
    | false => rfl
    | true =>
      obtain ⟨q', hk, hs⟩ := SPath.steady he
      have h1 : (q.exists_ L).2 = q' := (hs _ _ _).1
      have h2 : (q'.isNull L) = ((q.isNull L).1, q') := (hs _ _ _).2
      have h3 : (q'.mapping L) = ((q.mapping L).1, q') := (hs _ _ _).2
      dsimp only
      rw [h1, onChild_some (set_get h), h2]
      dsimp only
      rw [List.set_set]
      cases (q.isNull L).1 with
      | error e => rfl
      | ok b =>
        cases b with
        | true => dsimp only; split <;> rfl
        | false =>
          dsimp only
          rw [onChild_some (set_get h), h3]
          dsimp only
          rw [List.set_set]
          cases (q.mapping L).1 with
          | error e => dsimp only; split <;> rfl
          | ok kv => rfl

/-- One source in the loop of `Sequence.__init__`. -/
theorem sequenceLoop_step {cfg : UnionCfg} {kids : List SPath} {c : Nat} {q : SPath} (h : kids[c]? = some q)
    (rest : List Nat) (m : Option Merge) (acc : List (Nat × Nat)) :
    sequenceLoop L cfg (c :: rest) m acc kids = match q.lenReport L with
      | .absent => sequenceLoop L cfg rest m acc (kids.set c (q.exists_ L).2)
      | .fails e => (.error e, kids.set c (q.exists_ L).2)
      | .null => sequenceLoop L cfg rest m acc (kids.set c (q.exists_ L).2)
      | .gives n => match acc with
        | [] => sequenceLoop L cfg rest m [(c, n)] (kids.set c (q.exists_ L).2)
        | a :: as => match m.getD (sequenceMode cfg q.keys.length) with
          | .combine => sequenceLoop L cfg rest (some .combine) (a :: as ++ [(c, n)]) (kids.set c (q.exists_ L).2)
          | .first => sequenceLoop L cfg rest (some .first) (a :: as) (kids.set c (q.exists_ L).2)
          | .last => sequenceLoop L cfg rest (some .last) ((c, n) :: as) (kids.set c (q.exists_ L).2)
          | .bad => (.error (.indexError "tuple index out of range"), kids.set c (q.exists_ L).2) := by
  rw [sequenceLoop, onChild_some h]
  unfold SPath.lenReport
  cases he : (q.exists_ L).1 with
  | error e => rfl
  | ok b =>
    cases b with
    | false => rfl
    | true =>
      obtain ⟨q', hk, hs⟩ := SPath.steady he
      have h1 : (q.exists_ L).2 = q' := (hs _ _ _).1
      have h2 : (q'.isNull L) = ((q.isNull L).1, q') := (hs _ _ _).2
      have h3 : (q'.sequence L) = ((q.sequence L).1, q') := (hs _ _ _).2
      dsimp only
      rw [h1, onChild_some (set_get h), h2]
      dsimp only
      rw [List.set_set]
      cases (q.isNull L).1 with
      | error e => rfl
      | ok b =>
        cases b with
        | true => rfl
        | false =>
          dsimp only
          rw [onChild_some (set_get h), h3]
          dsimp only
          rw [List.set_set]
          cases (q.sequence L).1 with
          | error e => rfl
          | ok n =>
            cases acc with
            | nil => rfl
            | cons a as =>
              dsimp only
              rw [set_get h]
              simp only [Option.map_some, Option.getD_some, hk]
              generalize hg : m.getD (sequenceMode cfg q.keys.length) = x
              cases x <;> rfl

/-- The sources after the sources `cs` may have been read: those that gave `got` have been asked whether there is
something, the others are as they were or have been asked too. -/
structure Touched {α : Type} (L : Lib) (cs : List Nat) (kids : List SPath) (got : List (Nat × α)) (kids' : List SPath) :
    Prop where
  same : kids'.length = kids.length
  others : ∀ d, d ∉ cs → kids'[d]? = kids[d]?
  each : ∀ c ∈ cs, ∀ q, kids[c]? = some q → kids'[c]? = some q ∨ kids'[c]? = some (q.exists_ L).2
  got : ∀ x ∈ got, ∀ q, kids[x.1]? = some q → kids'[x.1]? = some (q.exists_ L).2

theorem Touched.nil {α : Type} (cs : List Nat) (kids : List SPath) : Touched (α := α) L cs kids [] kids :=
  ⟨rfl, fun _ _ => rfl, fun _ _ _ h => .inl h, by simp⟩

theorem Touched.one {α : Type} {kids : List SPath} {c : Nat} {q : SPath} (h : kids[c]? = some q) (cs : List Nat)
    {got : List (Nat × α)} (hg : ∀ x ∈ got, x.1 = c) (hcs : c ∉ cs) :
    Touched L (c :: cs) kids got (kids.set c (q.exists_ L).2) := by
  refine ⟨by simp, fun d hd => ?_, fun d hd p hp => ?_, fun x hx p hp => ?_⟩
  · simp only [List.mem_cons, not_or] at hd
    rw [List.getElem?_set_ne fun h => hd.1 h.symm]
  · rcases List.mem_cons.1 hd with rfl | hd'
    · rw [h] at hp; cases hp; exact .inr (set_get h)
    · have : d ≠ c := by rintro rfl; exact hcs hd'
      exact .inl (by rw [List.getElem?_set_ne fun h => this h.symm]; exact hp)
  · obtain rfl := hg x hx
    rw [h] at hp; cases hp; exact set_get h

theorem Touched.cons {α : Type} {kids kids' : List SPath} {c : Nat} {q : SPath} (h : kids[c]? = some q) {cs : List Nat}
    {got got' : List (Nat × α)} (hk : Touched L cs (kids.set c (q.exists_ L).2) got kids') (hcs : c ∉ cs)
    (hg : ∀ x ∈ got', x ∈ got ∨ x.1 = c) : Touched L (c :: cs) kids got' kids' := by
  have hc : kids'[c]? = some (q.exists_ L).2 := by rw [hk.others c hcs, set_get h]
  refine ⟨by rw [hk.same]; simp, fun d hd => ?_, fun d hd p hp => ?_, fun x hx p hp => ?_⟩
  · simp only [List.mem_cons, not_or] at hd
    rw [hk.others d hd.2, List.getElem?_set_ne fun h => hd.1 h.symm]
  · rcases List.mem_cons.1 hd with rfl | hd'
    · rw [h] at hp; cases hp; exact .inr hc
    · have : d ≠ c := by rintro rfl; exact hcs hd'
      exact hk.each d hd' p (by rw [List.getElem?_set_ne fun h => this h.symm]; exact hp)
  · by_cases hxc : x.1 = c
    · rw [hxc] at hp ⊢
      rw [h] at hp; cases hp; exact hc
    · rcases hg x hx with hx | hx
      · exact hk.got x hx p (by rw [List.getElem?_set_ne fun h => hxc h.symm]; exact hp)
      · exact (hxc hx).elim

theorem Merged.absent_cons {α : Type} {rs : List (Nat × Report α)} {r : Except Exc (List (Nat × α))} (c : Nat)
    (h : Merged .first rs r) : Merged .first ((c, .absent) :: rs) r := by
  have key : ∀ {pre : List (Nat × Report α)}, (∀ r ∈ pre, r.2 = .absent) →
      ∀ r ∈ (c, Report.absent) :: pre, r.2 = .absent := by
    intro pre hp r hr
    rcases List.mem_cons.1 hr with rfl | hr
    · rfl
    · exact hp r hr
  cases h with
  | nothing h => exact .nothing (key h)
  | null h => exact .null (pre := (c, .absent) :: _) (key h)
  | first h => exact .first (pre := (c, .absent) :: _) (key h)
  | failsFirst h => exact .failsFirst (pre := (c, .absent) :: _) (key h)
  | fails hm _ => rcases hm with hm | hm <;> cases hm

theorem mappingLoop_first {cs : List Nat} : ∀ {kids : List SPath}, cs.Nodup → (∀ c ∈ cs, c < kids.length) →
    Merged .first (reports (SPath.keysReport L) kids cs) (mappingLoop L .first cs [] kids).1 ∧
    ∀ ms, (mappingLoop L .first cs [] kids).1 = .ok ms → Touched L cs kids ms (mappingLoop L .first cs [] kids).2 := by
  induction cs with
  | nil =>
    intro kids _ _
    refine ⟨.nothing (by simp [reports]), fun ms h => ?_⟩
    cases h
    exact .nil _ _
  | cons c cs ih =>
    intro kids hn hb
    obtain ⟨hc, hn'⟩ := List.nodup_cons.1 hn
    obtain ⟨q, hq⟩ : ∃ q, kids[c]? = some q := ⟨_, List.getElem?_eq_getElem (hb c List.mem_cons_self)⟩
    rw [reports_cons hq, mappingLoop_step hq]
    cases hr : q.keysReport L with
    | absent =>
      obtain ⟨h1, h2⟩ := ih (kids := kids.set c (q.exists_ L).2) hn' fun d hd => by
        simpa using hb d (List.mem_cons_of_mem _ hd)
      rw [reports_set hc] at h1
      exact ⟨h1.absent_cons c, fun ms h => (h2 ms h).cons hq hc fun x hx => .inl hx⟩
    | fails e => exact ⟨.failsFirst (pre := []) (by simp), fun ms h => by cases h⟩
    | null => exact ⟨.null (pre := []) (by simp), fun ms h => by cases h; exact .one hq _ (by simp) hc⟩
    | gives ks => exact ⟨.first (pre := []) (by simp), fun ms h => by cases h; exact .one hq _ (by simp) hc⟩

/-- What the loop makes of what it has got so far and of what it gets in addition. -/
def upTo {α : Type} (m : Merge) (acc new : List (Nat × α)) : List (Nat × α) :=
  if m = .last then (acc ++ new).getLast?.toList else acc ++ new

theorem given_cons_gives {α : Type} (c : Nat) (a : α) (rs : List (Nat × Report α)) :
    given ((c, .gives a) :: rs) = (c, a) :: given rs := rfl

theorem mappingLoop_all {m : Merge} (hm : m = .combine ∨ m = .last) {cs : List Nat} : ∀ {kids : List SPath}
    {acc : List (Nat × List Val)}, cs.Nodup → (∀ c ∈ cs, c < kids.length) → (m = .last → acc.length ≤ 1) →
    ((∀ r ∈ reports (SPath.keysReport L) kids cs, ∀ e, r.2 ≠ .fails e) →
      ∃ kids', mappingLoop L m cs acc kids = (.ok (upTo m acc (given (reports (SPath.keysReport L) kids cs))), kids') ∧
        Touched L cs kids (given (reports (SPath.keysReport L) kids cs)) kids') ∧
    (∀ pre c e post, reports (SPath.keysReport L) kids cs = pre ++ (c, .fails e) :: post →
      (∀ r ∈ pre, ∀ e, r.2 ≠ .fails e) → (mappingLoop L m cs acc kids).1 = .error e) := by
  have hmf : m ≠ .first := by rintro rfl; rcases hm with hm | hm <;> cases hm
  induction cs with
  | nil =>
    intro kids acc _ _ hl
    refine ⟨fun _ => ⟨kids, ?_, .nil _ _⟩, ?_⟩
    · have : upTo m acc [] = acc := by
        unfold upTo
        split
        · next h =>
          have := hl h
          rcases acc with _ | ⟨a, _ | ⟨b, acc⟩⟩
          · rfl
          · rfl
          · simp at this
        · simp
      simp only [mappingLoop, reports, List.filterMap_nil]
      rw [show given ([] : List (Nat × Report (List Val))) = [] from rfl, this]
    · intro pre c e post h
      simp [reports] at h
  | cons c cs ih =>
    intro kids acc hn hb hl
    obtain ⟨hc, hn'⟩ := List.nodup_cons.1 hn
    obtain ⟨q, hq⟩ : ∃ q, kids[c]? = some q := ⟨_, List.getElem?_eq_getElem (hb c List.mem_cons_self)⟩
    rw [reports_cons hq, mappingLoop_step hq]
    have ih' := @ih (kids.set c (q.exists_ L).2)
    rw [reports_set hc] at ih'
    have hb' : ∀ d ∈ cs, d < (kids.set c (q.exists_ L).2).length := fun d hd => by
      simpa using hb d (List.mem_cons_of_mem _ hd)
    have skip : ∀ {x : Report (List Val)}, (x = .absent ∨ x = .null) →
        given ((c, x) :: reports (SPath.keysReport L) kids cs) = given (reports (SPath.keysReport L) kids cs) := by
      rintro x (rfl | rfl) <;> rfl
    have tail : ∀ {x : Report (List Val)} {pre : List (Nat × Report (List Val))} {d : Nat} {e : Exc}
        {post : List (Nat × Report (List Val))}, (∀ e, x ≠ .fails e) →
        (c, x) :: reports (SPath.keysReport L) kids cs = pre ++ (d, .fails e) :: post →
        (∀ r ∈ pre, ∀ e, r.2 ≠ .fails e) →
        ∃ pre', reports (SPath.keysReport L) kids cs = pre' ++ (d, .fails e) :: post ∧
          ∀ r ∈ pre', ∀ e, r.2 ≠ .fails e := by
      intro x pre d e post hx h hp
      cases pre with
      | nil =>
        simp only [List.nil_append, List.cons.injEq, Prod.mk.injEq] at h
        exact (hx e h.1.2).elim
      | cons r pre =>
        simp only [List.cons_append, List.cons.injEq] at h
        exact ⟨pre, h.2, fun r hr => hp r (List.mem_cons_of_mem _ hr)⟩
    cases hr : q.keysReport L with
    | absent =>
      obtain ⟨h1, h2⟩ := ih' (acc := acc) hn' hb' hl
      refine ⟨fun h => ?_, fun pre d e post h hp => ?_⟩
      · rw [skip (.inl rfl)]
        obtain ⟨kids', h3, h4⟩ := h1 fun r hr => h r (List.mem_cons_of_mem _ hr)
        exact ⟨kids', h3, h4.cons hq hc fun x hx => .inl hx⟩
      · obtain ⟨pre', h3, h4⟩ := tail (fun e he => by cases he) h hp
        exact h2 pre' d e post h3 h4
    | null =>
      obtain ⟨h1, h2⟩ := ih' (acc := acc) hn' hb' hl
      dsimp only
      rw [if_neg hmf]
      refine ⟨fun h => ?_, fun pre d e post h hp => ?_⟩
      · rw [skip (.inr rfl)]
        obtain ⟨kids', h3, h4⟩ := h1 fun r hr => h r (List.mem_cons_of_mem _ hr)
        exact ⟨kids', h3, h4.cons hq hc fun x hx => .inl hx⟩
      · obtain ⟨pre', h3, h4⟩ := tail (fun e he => by cases he) h hp
        exact h2 pre' d e post h3 h4
    | fails e =>
      refine ⟨fun h => (h _ List.mem_cons_self e rfl).elim, fun pre d e' post h hp => ?_⟩
      cases pre with
      | nil =>
        simp only [List.nil_append, List.cons.injEq, Prod.mk.injEq, Report.fails.injEq] at h
        rw [h.1.2]
      | cons r pre =>
        simp only [List.cons_append, List.cons.injEq] at h
        exact (hp r List.mem_cons_self e (by rw [← h.1])).elim
    | gives ks =>
      dsimp only
      rw [if_neg hmf, given_cons_gives]
      have hloop : ∃ acc', (∀ new, upTo m acc' new = upTo m acc ((c, ks) :: new)) ∧ (m = .last → acc'.length ≤ 1) ∧
          (if acc.isEmpty then mappingLoop L m cs (acc ++ [(c, ks)]) (kids.set c (q.exists_ L).2)
            else if m = .combine then mappingLoop L m cs (acc ++ [(c, ks)]) (kids.set c (q.exists_ L).2)
            else if m = .last then mappingLoop L m cs [(c, ks)] (kids.set c (q.exists_ L).2)
            else mappingLoop L m cs acc (kids.set c (q.exists_ L).2)) =
          mappingLoop L m cs acc' (kids.set c (q.exists_ L).2) := by
        rcases hm with rfl | rfl
        · refine ⟨acc ++ [(c, ks)], fun new => by simp [upTo], nofun, ?_⟩
          rw [if_pos rfl, ite_self]
        · refine ⟨[(c, ks)], fun new => ?_, fun _ => by simp, ?_⟩
          · simp only [upTo, if_true]
            congr 1
            obtain ⟨x, h⟩ : ∃ x, ((c, ks) :: new).getLast? = some x := by
              cases h : ((c, ks) :: new).getLast? with
              | none => simp at h
              | some x => exact ⟨x, rfl⟩
            show ((c, ks) :: new).getLast? = _
            rw [List.getLast?_append, h]
            rfl
          · cases acc with
            | nil => rfl
            | cons a acc => rfl
      obtain ⟨acc', h5, h6, h7⟩ := hloop
      rw [h7]
      obtain ⟨h1, h2⟩ := ih' (acc := acc') hn' hb' h6
      refine ⟨fun h => ?_, fun pre d e post h hp => ?_⟩
      · obtain ⟨kids', h3, h4⟩ := h1 fun r hr => h r (List.mem_cons_of_mem _ hr)
        rw [← h5]
        refine ⟨kids', h3, h4.cons hq hc fun x hx => ?_⟩
        rcases List.mem_cons.1 hx with rfl | hx
        · exact .inr rfl
        · exact .inl hx
      · obtain ⟨pre', h3, h4⟩ := tail (fun e he => by cases he) h hp
        exact h2 pre' d e post h3 h4

/-- What is made of the sequences found: all of them, the first or the last. -/
def pick {α : Type} : Merge → List (Nat × α) → List (Nat × α)
  | .combine, xs => xs
  | .last, xs => xs.getLast?.toList
  | _, xs => xs.head?.toList

theorem sequenceLoop_all {cfg : UnionCfg} {n : Nat} (hbad : sequenceMode cfg n ≠ .bad) {cs : List Nat} :
    ∀ {kids : List SPath} {m : Option Merge} {acc : List (Nat × Nat)}, cs.Nodup → (∀ c ∈ cs, c < kids.length) →
    (∀ c ∈ cs, ∀ q, kids[c]? = some q → q.keys.length = n) → (m = none ∨ m = some (sequenceMode cfg n)) →
    (sequenceMode cfg n ≠ .combine → acc.length ≤ 1) →
    (∀ r ∈ reports (SPath.lenReport L) kids cs, ∀ e, r.2 ≠ .fails e) →
    ∃ kids', sequenceLoop L cfg cs m acc kids =
        (.ok (pick (sequenceMode cfg n) (acc ++ given (reports (SPath.lenReport L) kids cs))), kids') ∧
      Touched L cs kids (given (reports (SPath.lenReport L) kids cs)) kids' := by
  induction cs with
  | nil =>
    intro kids m acc _ _ _ _ hl _
    refine ⟨kids, ?_, .nil _ _⟩
    simp only [sequenceLoop, reports, List.filterMap_nil]
    rw [show given ([] : List (Nat × Report Nat)) = [] from rfl, List.append_nil]
    generalize sequenceMode cfg n = x at hl hbad
    cases x with
    | combine => rfl
    | bad => exact (hbad rfl).elim
    | first =>
      rcases acc with _ | ⟨a, _ | ⟨b, acc⟩⟩
      · rfl
      · rfl
      · simp at hl
    | last =>
      rcases acc with _ | ⟨a, _ | ⟨b, acc⟩⟩
      · rfl
      · rfl
      · simp at hl
  | cons c cs ih =>
    intro kids m acc hn hb hd hm hl hf
    obtain ⟨hc, hn'⟩ := List.nodup_cons.1 hn
    obtain ⟨q, hq⟩ : ∃ q, kids[c]? = some q := ⟨_, List.getElem?_eq_getElem (hb c List.mem_cons_self)⟩
    rw [reports_cons hq] at hf ⊢
    rw [sequenceLoop_step hq]
    have ih' := @ih (kids.set c (q.exists_ L).2)
    rw [reports_set hc] at ih'
    have hb' : ∀ d ∈ cs, d < (kids.set c (q.exists_ L).2).length := fun d hd => by
      simpa using hb d (List.mem_cons_of_mem _ hd)
    have hd' : ∀ d ∈ cs, ∀ p, (kids.set c (q.exists_ L).2)[d]? = some p → p.keys.length = n := by
      intro d hdm p hp
      have : d ≠ c := by rintro rfl; exact hc hdm
      rw [List.getElem?_set_ne fun h => this h.symm] at hp
      exact hd d (List.mem_cons_of_mem _ hdm) p hp
    have hf' : ∀ r ∈ reports (SPath.lenReport L) kids cs, ∀ e, r.2 ≠ .fails e :=
      fun r hr => hf r (List.mem_cons_of_mem _ hr)
    have hqn : q.keys.length = n := hd c List.mem_cons_self q hq
    cases hr : q.lenReport L with
    | absent =>
      obtain ⟨kids', h3, h4⟩ := ih' hn' hb' hd' hm hl hf'
      exact ⟨kids', h3, h4.cons hq hc fun x hx => .inl hx⟩
    | null =>
      obtain ⟨kids', h3, h4⟩ := ih' hn' hb' hd' hm hl hf'
      exact ⟨kids', h3, h4.cons hq hc fun x hx => .inl hx⟩
    | fails e => exact (hf _ List.mem_cons_self e hr).elim
    | gives k =>
      rw [given_cons_gives]
      have key : ∃ m' acc', (match (generalizing := false) acc with
          | [] => sequenceLoop L cfg cs m [(c, k)] (kids.set c (q.exists_ L).2)
          | a :: as => match m.getD (sequenceMode cfg q.keys.length) with
            | .combine => sequenceLoop L cfg cs (some .combine) (a :: as ++ [(c, k)]) (kids.set c (q.exists_ L).2)
            | .first => sequenceLoop L cfg cs (some .first) (a :: as) (kids.set c (q.exists_ L).2)
            | .last => sequenceLoop L cfg cs (some .last) ((c, k) :: as) (kids.set c (q.exists_ L).2)
            | .bad => (.error (.indexError "tuple index out of range"), kids.set c (q.exists_ L).2))
          = sequenceLoop L cfg cs m' acc' (kids.set c (q.exists_ L).2) ∧
          (m' = none ∨ m' = some (sequenceMode cfg n)) ∧ (sequenceMode cfg n ≠ .combine → acc'.length ≤ 1) ∧
          ∀ new, pick (sequenceMode cfg n) (acc' ++ new) = pick (sequenceMode cfg n) (acc ++ (c, k) :: new) := by
        cases acc with
        | nil => exact ⟨m, [(c, k)], rfl, hm, fun _ => by simp, fun new => rfl⟩
        | cons a as =>
          have hmd : m.getD (sequenceMode cfg q.keys.length) = sequenceMode cfg n := by
            rw [hqn]; rcases hm with rfl | rfl <;> rfl
          dsimp only
          rw [hmd]
          generalize hx : sequenceMode cfg n = x at hl hbad
          cases x with
          | combine =>
            exact ⟨some .combine, a :: as ++ [(c, k)], rfl, .inr rfl, fun h => (h rfl).elim, fun new => by simp [pick]⟩
          | first => exact ⟨some .first, a :: as, rfl, .inr rfl, hl, fun new => rfl⟩
          | last =>
            have : as = [] := by simpa using hl (by simp)
            subst this
            refine ⟨some .last, [(c, k)], rfl, .inr rfl, fun _ => by simp, fun new => ?_⟩
            simp only [pick]
            congr 1
          | bad => exact (hbad rfl).elim
      obtain ⟨m', acc', h5, h6, h7, h8⟩ := key
      dsimp only
      rw [h5]
      obtain ⟨kids', h3, h4⟩ := ih' hn' hb' hd' h6 h7 hf'
      rw [h8] at h3
      refine ⟨kids', h3, h4.cons hq hc fun x hx => ?_⟩
      rcases List.mem_cons.1 hx with rfl | hx
      · exact .inr rfl
      · exact .inl hx

/-! ## C39, for given sources -/

theorem first_failure {α : Type} (rs : List (Nat × Report α)) : (∀ r ∈ rs, ∀ e, r.2 ≠ .fails e) ∨
    ∃ pre c e post, rs = pre ++ (c, .fails e) :: post ∧ ∀ r ∈ pre, ∀ e, r.2 ≠ .fails e := by
  induction rs with
  | nil => exact .inl (by simp)
  | cons r rs ih =>
    obtain ⟨c, x⟩ := r
    by_cases hx : ∃ e, x = .fails e
    · obtain ⟨e, rfl⟩ := hx
      exact .inr ⟨[], c, e, rs, rfl, by simp⟩
    · rcases ih with h | ⟨pre, d, e, post, h1, h2⟩
      · refine .inl fun r hr e he => ?_
        rcases List.mem_cons.1 hr with rfl | hr
        · exact hx ⟨e, he⟩
        · exact h r hr e he
      · refine .inr ⟨(c, x) :: pre, d, e, post, by rw [h1]; rfl, fun r hr e he => ?_⟩
        rcases List.mem_cons.1 hr with rfl | hr
        · exact hx ⟨e, he⟩
        · exact h2 r hr e he

theorem Touched.sub {α : Type} {cs : List Nat} {kids kids' : List SPath} {got got' : List (Nat × α)}
    (h : Touched L cs kids got kids') (hs : ∀ x ∈ got', x ∈ got) : Touched L cs kids got' kids' :=
  { h with got := fun x hx => h.got x (hs x hx) }

/-- The mapping made of the sources `cs` is the merge of what they report. -/
theorem mkMapping_merged {cfg : UnionCfg} {merge : Option Merge} {cs : List Nat} {kids : List SPath} (hn : cs.Nodup)
    (hb : ∀ c ∈ cs, c < kids.length) (hm : mappingMode cfg merge cs.length ≠ .bad) :
    Merged (mappingMode cfg merge cs.length) (reports (SPath.keysReport L) kids cs) (mkMapping L cfg merge cs kids).1 ∧
    ∀ ms, (mkMapping L cfg merge cs kids).1 = .ok ms → Touched L cs kids ms (mkMapping L cfg merge cs kids).2 := by
  unfold mkMapping
  dsimp only
  rw [if_neg hm]
  generalize mappingMode cfg merge cs.length = m at hm
  have all : (m = .combine ∨ m = .last) → Merged m (reports (SPath.keysReport L) kids cs) (mappingLoop L m cs [] kids).1 ∧
      ∀ ms, (mappingLoop L m cs [] kids).1 = .ok ms → Touched L cs kids ms (mappingLoop L m cs [] kids).2 := by
    intro hm
    obtain ⟨h1, h2⟩ := mappingLoop_all (L := L) hm (kids := kids) (acc := []) hn hb (fun _ => by simp)
    rcases first_failure (reports (SPath.keysReport L) kids cs) with h | ⟨pre, c, e, post, h3, h4⟩
    · obtain ⟨kids', h3, h4⟩ := h1 h
      rw [h3]
      rcases hm with rfl | rfl
      · refine ⟨.combine h, fun ms hms => ?_⟩
        cases hms
        exact h4
      · refine ⟨.last h, fun ms hms => ?_⟩
        cases hms
        refine h4.sub fun x hx => ?_
        simp only [upTo, if_true, List.nil_append, Option.mem_toList] at hx
        exact List.mem_of_getLast? hx
    · have h5 := h2 pre c e post h3 h4
      rw [h3, h5]
      exact ⟨.fails hm h4, fun ms h => by cases h⟩
  cases m with
  | bad => exact (hm rfl).elim
  | combine => exact all (.inl rfl)
  | last => exact all (.inr rfl)
  | first => exact mappingLoop_first hn hb

theorem mkMapping_bad {cfg : UnionCfg} {merge : Option Merge} {cs : List Nat} {kids : List SPath}
    (hm : mappingMode cfg merge cs.length = .bad) : (mkMapping L cfg merge cs kids).1 = .error (.valueError "merge invalid") := by
  unfold mkMapping
  dsimp only
  rw [if_pos hm]

/-! ## The positions a union path refers to -/

/-- A container of a union path refers to sources of the union, to each at most once. -/
def UVal.Fine (n : Nat) : UVal → Prop
  | .join cs => cs.Nodup ∧ ∀ c ∈ cs, c < n
  | .mapping ms => (ms.map Prod.fst).Nodup ∧ ∀ c ∈ ms.map Prod.fst, c < n
  | .seq ss => ∀ x ∈ ss, x.1 < n
  | .val _ => True

theorem given_fst {α : Type} {f : SPath → Report α} {kids : List SPath} {cs : List Nat} :
    ((given (reports f kids cs)).map Prod.fst).Sublist cs := by
  induction cs with
  | nil => exact .slnil
  | cons c cs ih =>
    unfold reports given at ih ⊢
    simp only [List.filterMap_cons]
    cases kids[c]? with
    | none => exact .cons _ ih
    | some q =>
      simp only [Option.map_some, List.filterMap_cons]
      cases f q with
      | gives a => exact ih.cons_cons c
      | _ => exact .cons _ ih

theorem reports_fst {α : Type} {f : SPath → Report α} {kids : List SPath} {cs : List Nat} :
    ((reports f kids cs).map Prod.fst).Sublist cs := by
  induction cs with
  | nil => exact .slnil
  | cons c cs ih =>
    unfold reports at ih ⊢
    simp only [List.filterMap_cons]
    cases kids[c]? with
    | none => exact .cons _ ih
    | some q => exact ih.cons_cons c

theorem Merged.fst {α : Type} {f : SPath → Report α} {kids : List SPath} {cs : List Nat} {m : Merge}
    {ms : List (Nat × α)} (h : Merged m (reports f kids cs) (.ok ms)) : (ms.map Prod.fst).Sublist cs := by
  generalize hr : (Except.ok ms : Except Exc (List (Nat × α))) = r at h
  generalize hrs : reports f kids cs = rs at h
  cases h with
  | combine _ => cases hr; rw [← hrs]; exact given_fst
  | last _ =>
    cases hr
    rw [← hrs]
    refine List.Sublist.trans (List.Sublist.map _ ?_) (given_fst (f := f) (kids := kids) (cs := cs))
    cases h : (given (reports f kids cs)).getLast? with
    | none => exact List.nil_sublist _
    | some x =>
      simp only [Option.toList_some]
      exact List.singleton_sublist.2 (List.mem_of_getLast? h)
  | fails _ _ => cases hr
  | nothing _ => cases hr; exact List.nil_sublist _
  | null _ => cases hr; exact List.nil_sublist _
  | first _ =>
    cases hr
    refine List.singleton_sublist.2 ?_
    have h1 := reports_fst (f := f) (kids := kids) (cs := cs)
    rw [hrs] at h1
    exact h1.subset (by simp)
  | failsFirst _ => cases hr

theorem mkMapping_fine {cfg : UnionCfg} {merge : Option Merge} {cs : List Nat} {kids : List SPath}
    {ms : List (Nat × List Val)} (hn : cs.Nodup) (hb : ∀ c ∈ cs, c < kids.length)
    (h : (mkMapping L cfg merge cs kids).1 = .ok ms) : (UVal.mapping ms).Fine kids.length := by
  by_cases hm : mappingMode cfg merge cs.length = .bad
  · rw [mkMapping_bad hm] at h; cases h
  · have h1 := (mkMapping_merged (L := L) hn hb hm).1
    rw [h] at h1
    exact ⟨hn.sublist h1.fst, fun c hc => hb c (h1.fst.subset hc)⟩

theorem onChild_length {α : Type} (kids : List SPath) (c : Nat) (f : SPath → Except Exc α × SPath) :
    (onChild kids c f).2.length = kids.length := by
  unfold onChild
  split <;> simp

theorem mappingLoop_length {m : Merge} {cs : List Nat} : ∀ {acc : List (Nat × List Val)} {kids : List SPath},
    (∀ c ∈ cs, c < kids.length) → (mappingLoop L m cs acc kids).2.length = kids.length := by
  induction cs with
  | nil => intros; rfl
  | cons c cs ih =>
    intro acc kids hb
    obtain ⟨q, hq⟩ : ∃ q, kids[c]? = some q := ⟨_, List.getElem?_eq_getElem (hb c List.mem_cons_self)⟩
    rw [mappingLoop_step hq]
    have h1 : (kids.set c (q.exists_ L).2).length = kids.length := by simp
    have ih' : ∀ acc, (mappingLoop L m cs acc (kids.set c (q.exists_ L).2)).2.length = kids.length :=
      fun acc => (ih (by rw [h1]; exact fun d hd => hb d (List.mem_cons_of_mem _ hd))).trans h1
    cases q.keysReport L with
    | absent => exact ih' _
    | fails e => exact h1
    | null => dsimp only; split <;> first | exact h1 | exact ih' _
    | gives ks => dsimp only; repeat' split
                  all_goals first | exact h1 | exact ih' _

theorem sequenceLoop_length {cfg : UnionCfg} {cs : List Nat} : ∀ {m : Option Merge} {acc : List (Nat × Nat)}
    {kids : List SPath}, (∀ c ∈ cs, c < kids.length) → (sequenceLoop L cfg cs m acc kids).2.length = kids.length ∧
    ∀ ss, (sequenceLoop L cfg cs m acc kids).1 = .ok ss → ∀ x ∈ ss, x ∈ acc ∨ x.1 ∈ cs := by
  induction cs with
  | nil =>
    intro m acc kids _
    exact ⟨rfl, fun ss h x hx => by cases h; exact .inl hx⟩
  | cons c cs ih =>
    intro m acc kids hb
    obtain ⟨q, hq⟩ : ∃ q, kids[c]? = some q := ⟨_, List.getElem?_eq_getElem (hb c List.mem_cons_self)⟩
    rw [sequenceLoop_step hq]
    have h1 : (kids.set c (q.exists_ L).2).length = kids.length := by simp
    have ih' : ∀ m acc', (∀ x ∈ acc', x ∈ acc ∨ x.1 = c) →
        (sequenceLoop L cfg cs m acc' (kids.set c (q.exists_ L).2)).2.length = kids.length ∧
        ∀ ss, (sequenceLoop L cfg cs m acc' (kids.set c (q.exists_ L).2)).1 = .ok ss →
          ∀ x ∈ ss, x ∈ acc ∨ x.1 ∈ c :: cs := by
      intro m acc' hacc
      obtain ⟨h2, h3⟩ := @ih m acc' (kids.set c (q.exists_ L).2)
        (by rw [h1]; exact fun d hd => hb d (List.mem_cons_of_mem _ hd))
      refine ⟨h2.trans h1, fun ss hs x hx => ?_⟩
      rcases h3 ss hs x hx with h | h
      · rcases hacc x h with h | h
        · exact .inl h
        · exact .inr (by rw [h]; exact List.mem_cons_self)
      · exact .inr (List.mem_cons_of_mem _ h)
    cases q.lenReport L with
    | absent => exact ih' _ _ fun x hx => .inl hx
    | fails e => exact ⟨h1, fun ss h => by cases h⟩
    | null => exact ih' _ _ fun x hx => .inl hx
    | gives k =>
      cases acc with
      | nil => exact ih' _ _ fun x hx => .inr (by rw [List.mem_singleton.1 hx])
      | cons a as =>
        dsimp only
        split
        · refine ih' _ _ fun x hx => ?_
          rcases List.mem_append.1 hx with hx | hx
          · exact .inl hx
          · exact .inr (by rw [List.mem_singleton.1 hx])
        · exact ih' _ _ fun x hx => .inl hx
        · refine ih' _ _ fun x hx => ?_
          rcases List.mem_cons.1 hx with rfl | hx
          · exact .inr rfl
          · exact .inl (List.mem_cons_of_mem _ hx)
        · exact ⟨h1, fun ss h => by cases h⟩

namespace UPath

/-- Every container a union path has met refers to sources of the union. -/
structure Sound (p : UPath) : Prop where
  root : p.st.root.Fine p.kids.length
  parts : ∀ q ∈ p.st.parts, ∀ v, q.cache = some v → v.Fine p.kids.length

theorem resolveUnion_fine {c : UVal} {k : Val} {kids : List SPath} (h : c.Fine kids.length) :
    (resolveUnion c k kids).2.length = kids.length ∧
    ∀ w, (resolveUnion c k kids).1 = .ok w → w.Fine kids.length := by
  have hg : (unionGet c k kids).2.length = kids.length ∧ ∀ w, (unionGet c k kids).1 = .ok w → w.Fine kids.length := by
    unfold unionGet
    split
    · rename_i ms
      refine ⟨rfl, fun w hw => ?_⟩
      have hsub : ((ms.filter fun m => k.inList m.2).map Prod.fst).Sublist (ms.map Prod.fst) :=
        List.Sublist.map _ List.filter_sublist
      simp only [mappingGet] at hw
      split at hw
      · cases hw
      · cases hw
        exact ⟨h.1.sublist hsub, fun c hc => h.2 c (hsub.subset hc)⟩
    · rename_i ss
      unfold seqGet
      split
      · exact ⟨rfl, fun w hw => by cases hw⟩
      · split
        · exact ⟨rfl, fun w hw => by cases hw⟩
        · split
          · exact ⟨rfl, fun w hw => by cases hw⟩
          · rename_i q hq
            split
            · refine ⟨by simp, fun w hw => ?_⟩
              cases hw
              refine ⟨by simp, fun c hc => ?_⟩
              rw [List.mem_singleton.1 hc]
              exact (List.getElem?_eq_some_iff.1 hq).1
            · exact ⟨rfl, fun w hw => by cases hw⟩
    · exact ⟨rfl, fun w hw => by cases hw⟩
    · split
      · exact ⟨rfl, fun w hw => by cases hw; trivial⟩
      · exact ⟨rfl, fun w hw => by cases hw⟩
  unfold resolveUnion
  split
  · rename_i heq; rw [heq] at hg; exact hg
  · rename_i heq; rw [heq] at hg; exact ⟨hg.1, fun w hw => by cases hw; trivial⟩

theorem fill_fine (ks : List Val) (ps : List (Part UVal)) : ∀ (kids : List SPath) (v : UVal), v.Fine kids.length →
    (∀ q ∈ ps, ∀ v, q.cache = some v → v.Fine kids.length) →
    (PathSt.fill (fun _ kids c k => resolveUnion c k kids) UVal.isNONE ks kids v ps).2.1.length = kids.length ∧
    (∀ w, (PathSt.fill (fun _ kids c k => resolveUnion c k kids) UVal.isNONE ks kids v ps).1 = .ok w → w.Fine kids.length) ∧
    ∀ q ∈ (PathSt.fill (fun _ kids c k => resolveUnion c k kids) UVal.isNONE ks kids v ps).2.2,
      ∀ v, q.cache = some v → v.Fine kids.length := by
  induction ps with
  | nil => intro kids v h _; exact ⟨rfl, fun w hw => by cases hw; exact h, by simp [PathSt.fill]⟩
  | cons p ps ih =>
    intro kids v h hp
    obtain ⟨h1, h2⟩ := resolveUnion_fine (k := p.key) h
    unfold PathSt.fill
    split
    · rename_i e kids' heq
      rw [heq] at h1
      exact ⟨h1, fun w hw => (by cases hw), hp⟩
    · rename_i w kids' heq
      rw [heq] at h1 h2
      have hw := h2 w rfl
      have htail : ∀ q ∈ ps, ∀ v, q.cache = some v → v.Fine kids.length := fun q hq => hp q (List.mem_cons_of_mem _ hq)
      split
      · refine ⟨h1, fun x hx => by cases hx; exact hw, fun q hq v hv => ?_⟩
        rcases List.mem_cons.1 hq with rfl | hq
        · cases hv; exact hw
        · exact htail q hq v hv
      · have h1' : kids'.length = kids.length := h1
        have := ih kids' w (by rw [h1']; exact hw) (by rw [h1']; exact htail)
        rw [h1'] at this
        obtain ⟨h3, h4, h5⟩ := this
        refine ⟨h3, h4, fun q hq v hv => ?_⟩
        rcases List.mem_cons.1 hq with rfl | hq
        · cases hv; exact hw
        · exact h5 q hq v hv

theorem Sound.uvalue {p : UPath} (h : p.Sound) : p.uvalue.2.Sound ∧ p.uvalue.2.kids.length = p.kids.length ∧
    ∀ v, p.uvalue.1 = .ok v → v.Fine p.kids.length := by
  unfold UPath.uvalue PathSt.value
  have hscan := PathSt.scan_spec p.st.parts.reverse
  cases hs : PathSt.scan p.st.parts.reverse with
  | error e => exact ⟨h, rfl, fun v hv => by cases hv⟩
  | ok o =>
    rw [hs] at hscan
    rcases o with _ | ⟨i, v⟩
    · obtain ⟨h1, h2, h3⟩ := fill_fine p.st.keys p.st.parts p.kids p.st.root h.root h.parts
      dsimp only
      exact ⟨⟨by rw [h1]; exact h.root, by rw [h1]; exact h3⟩, h1, h2⟩
    · obtain ⟨pre, q, post, h4, -, -, h5, -⟩ := hscan
      have hv : v.Fine p.kids.length := h.parts q (by
        have : q ∈ p.st.parts.reverse := by rw [h4]; simp
        exact List.mem_reverse.1 this) v h5
      obtain ⟨h1, h2, h3⟩ := fill_fine p.st.keys (p.st.parts.drop i) p.kids v hv
        fun q hq => h.parts q (List.mem_of_mem_drop hq)
      dsimp only
      refine ⟨⟨by rw [h1]; exact h.root, ?_⟩, h1, h2⟩
      rw [h1]
      intro q hq
      rcases List.mem_append.1 hq with hq | hq
      · exact h.parts q (List.mem_of_mem_take hq)
      · exact h3 q hq

theorem Sound.setKids {p : UPath} (h : p.Sound) {kids : List SPath} (hk : kids.length = p.kids.length) :
    Sound { p with kids := kids } := by
  refine ⟨?_, ?_⟩
  · show p.st.root.Fine kids.length
    rw [hk]; exact h.root
  · show ∀ q ∈ p.st.parts, ∀ v, q.cache = some v → v.Fine kids.length
    rw [hk]; exact h.parts

theorem Sound.setValue {p : UPath} (h : p.Sound) {v : UVal} (hv : v.Fine p.kids.length) {kids : List SPath}
    (hk : kids.length = p.kids.length) : Sound { p with st := p.st.setValue v, kids := kids } := by
  have key : (p.st.setValue v).root.Fine p.kids.length ∧ ∀ q ∈ (p.st.setValue v).parts, ∀ w, q.cache = some w →
      w.Fine p.kids.length := by
    unfold PathSt.setValue
    split
    · exact ⟨hv, h.parts⟩
    · rename_i q rest hr
      refine ⟨h.root, fun x hx w hw => ?_⟩
      simp only [List.mem_reverse, List.mem_cons] at hx
      rcases hx with rfl | hx
      · cases hw; exact hv
      · exact h.parts x (by
          have : x ∈ p.st.parts.reverse := by rw [hr]; exact List.mem_cons_of_mem _ hx
          exact List.mem_reverse.1 this) w hw
  refine ⟨?_, ?_⟩
  · show (p.st.setValue v).root.Fine kids.length
    rw [hk]; exact key.1
  · show ∀ q ∈ (p.st.setValue v).parts, ∀ w, q.cache = some w → w.Fine kids.length
    rw [hk]; exact key.2

theorem mkMapping_length {cfg : UnionCfg} {merge : Option Merge} {cs : List Nat} {kids : List SPath}
    (hb : ∀ c ∈ cs, c < kids.length) : (mkMapping L cfg merge cs kids).2.length = kids.length := by
  unfold mkMapping
  dsimp only
  split
  · rfl
  · exact mappingLoop_length hb

theorem Sound.mapping {p : UPath} (h : p.Sound) : (p.mapping L).2.Sound := by
  obtain ⟨h1, h2, h3⟩ := h.uvalue
  unfold UPath.mapping
  split
  · rename_i heq; rw [heq] at h1; exact h1
  · rename_i cs p' heq
    rw [heq] at h1 h2 h3
    obtain ⟨hn, hb⟩ := h3 _ rfl
    have h2' : p'.kids.length = p.kids.length := h2
    rw [← h2'] at hb
    have h4 := mkMapping_length (L := L) (cfg := p'.cfg) (merge := none) hb
    have h5 := fun ms => mkMapping_fine (L := L) (cfg := p'.cfg) (merge := none) (ms := ms) hn hb
    split
    · rename_i e kids heq2
      rw [heq2] at h4
      exact Sound.setKids h1 h4
    · rename_i ms kids heq2
      rw [heq2] at h4 h5
      exact Sound.setValue h1 (h5 ms rfl) h4
  · rename_i heq; rw [heq] at h1; exact h1
  · rename_i heq; rw [heq] at h1; exact h1

theorem Sound.sequence {p : UPath} (h : p.Sound) : (p.sequence L).2.Sound := by
  obtain ⟨h1, h2, h3⟩ := h.uvalue
  unfold UPath.sequence
  split
  · rename_i heq; rw [heq] at h1; exact h1
  · rename_i cs p' heq
    rw [heq] at h1 h2 h3
    obtain ⟨hn, hb⟩ := h3 _ rfl
    have h2' : p'.kids.length = p.kids.length := h2
    rw [← h2'] at hb
    obtain ⟨h4, h5⟩ := sequenceLoop_length (L := L) (cfg := p'.cfg) (m := none) (acc := []) hb
    split
    · rename_i e kids heq2
      rw [heq2] at h4
      exact Sound.setKids h1 h4
    · rename_i ss kids heq2
      rw [heq2] at h4 h5
      refine Sound.setValue h1 (v := .seq ss) (fun x hx => ?_) h4
      rcases h5 ss rfl x hx with h | h
      · simp at h
      · exact hb _ h
  · rename_i heq; rw [heq] at h1; exact h1
  · rename_i heq; rw [heq] at h1; exact h1

theorem Sound.primitive {p : UPath} (h : p.Sound) (ty : PTy) : (p.primitive L ty).2.Sound := by
  obtain ⟨h1, h2, h3⟩ := h.uvalue
  unfold UPath.primitive
  split
  · rename_i heq; rw [heq] at h1; exact h1
  · rename_i cs p' heq
    rw [heq] at h1
    split
    · exact Sound.setValue h1 (v := .val .NONE) trivial rfl
    · rename_i c cs
      have h4 := onChild_length p'.kids c (SPath.primitive L ty)
      split
      · rename_i heq2; rw [heq2] at h4; exact Sound.setKids h1 h4
      · rename_i v kids heq2; rw [heq2] at h4; exact Sound.setValue h1 (v := .val v) trivial h4
  · rename_i heq; rw [heq] at h1; exact h1

theorem Sound.exists_ {p : UPath} (h : p.Sound) : p.exists_.2.Sound := by
  have h1 := h.uvalue.1
  unfold UPath.exists_
  split <;> (rename_i heq; rw [heq] at h1; exact h1)

theorem Sound.isNull {p : UPath} (h : p.Sound) : p.isNull.2.Sound := by
  have h1 := h.uvalue.1
  unfold UPath.isNull
  split <;> (rename_i heq; rw [heq] at h1; exact h1)

theorem Sound.value {p : UPath} (h : p.Sound) : p.value.2.Sound := by
  have h1 := h.uvalue.1
  unfold UPath.value
  split <;> (rename_i heq; rw [heq] at h1; exact h1)

theorem Sound.append {p : UPath} (h : p.Sound) (k : Val) : (p.append k).Sound := by
  refine ⟨?_, ?_⟩
  · show p.st.root.Fine (p.kids.map (·.append k)).length
    rw [List.length_map]; exact h.root
  · show ∀ q ∈ p.st.parts ++ [Part.ofKey k], ∀ v, q.cache = some v → v.Fine (p.kids.map (·.append k)).length
    rw [List.length_map]
    intro q hq v hv
    rcases List.mem_append.1 hq with hq | hq
    · exact h.parts q hq v hv
    · rw [List.mem_singleton.1 hq] at hv; cases hv

theorem popAll_length {kids kids' : List SPath} (h : popAll kids = .ok kids') : kids'.length = kids.length := by
  induction kids generalizing kids' with
  | nil => cases h; rfl
  | cons c cs ih =>
    simp only [popAll] at h
    split at h
    · cases h
    · split at h
      · cases h
      · rename_i heq
        cases h
        simp [ih heq]

theorem Sound.pop {p q : UPath} (h : p.Sound) (hq : p.pop = .ok q) : q.Sound := by
  unfold UPath.pop at hq
  split at hq
  · cases hq
  · rename_i st' hst
    split at hq
    · cases hq
    · rename_i kids' hk
      cases hq
      have hl := popAll_length hk
      have hst' : st'.root = p.st.root ∧ ∀ x ∈ st'.parts, x ∈ p.st.parts := by
        unfold PathSt.pop at hst
        split at hst
        · cases hst
        · rename_i y rest hr
          cases hst
          refine ⟨rfl, fun x hx => ?_⟩
          have : x ∈ p.st.parts.reverse := by rw [hr]; exact List.mem_cons_of_mem _ (List.mem_reverse.1 hx)
          exact List.mem_reverse.1 this
      refine ⟨?_, ?_⟩
      · show st'.root.Fine kids'.length
        rw [hl, hst'.1]; exact h.root
      · show ∀ q ∈ st'.parts, ∀ v, q.cache = some v → v.Fine kids'.length
        rw [hl]
        exact fun q hq => h.parts q (hst'.2 q hq)

theorem mk'_sound {cfg : UnionCfg} {kids : List SPath} {p : UPath} (h : mk' L cfg kids = .ok p) : p.Sound := by
  unfold mk' at h
  split at h
  · cases h
  · have hb : ∀ c ∈ List.range kids.length, c < kids.length := fun c hc => List.mem_range.1 hc
    have h4 := mkMapping_length (L := L) (cfg := cfg) (merge := some .combine) hb
    have h5 := fun ms => mkMapping_fine (L := L) (cfg := cfg) (merge := some .combine) (ms := ms) List.nodup_range hb
    split at h
    · cases h
    · rename_i ms kids' heq
      cases h
      rw [heq] at h4 h5
      have h4' : kids'.length = kids.length := h4
      refine ⟨?_, by intro q hq; cases hq⟩
      show (UVal.mapping ms).Fine kids'.length
      rw [h4']; exact h5 ms rfl

/-- The effect of one operation on a union path; a failing operation leaves what it leaves. -/
def act (L : Lib) (p : UPath) : PathOp → UPath
  | .append k => p.append k
  | .pop => match p.pop with
    | .ok q => q
    | .error _ => p
  | .value => p.value.2
  | .exists_ => p.exists_.2
  | .isNull => p.isNull.2
  | .mapping => (p.mapping L).2
  | .sequence => (p.sequence L).2
  | .primitive ty => (p.primitive L ty).2

theorem Sound.act {p : UPath} (h : p.Sound) (op : PathOp) : (p.act L op).Sound := by
  cases op with
  | append k => exact h.append k
  | pop =>
    simp only [UPath.act]
    split
    · rename_i hq; exact h.pop hq
    · exact h
  | value => exact h.value
  | exists_ => exact h.exists_
  | isNull => exact h.isNull
  | mapping => exact h.mapping
  | sequence => exact h.sequence
  | primitive ty => exact h.primitive ty

theorem Sound.hist {p : UPath} (h : p.Sound) (ops : List PathOp) : (ops.foldl (UPath.act L) p).Sound := by
  induction ops generalizing p with
  | nil => exact h
  | cons op ops ih => exact ih (h.act op)

theorem act_wf {p : UPath} (h : p.WF) (op : PathOp) : (p.act L op).WF := by
  cases op with
  | append k => exact append_wf h k
  | pop =>
    simp only [UPath.act]
    split
    · rename_i q hq
      rcases List.eq_nil_or_concat p.keys with h0 | ⟨ks, k, h0⟩
      · have : p.st.parts = [] := List.map_eq_nil_iff.1 h0
        simp [UPath.pop, PathSt.pop, this] at hq
      · obtain ⟨q', h1, -, h2⟩ := pop_keys h (ks := ks) (k := k) (by rw [h0]; simp)
        rw [hq] at h1
        cases h1
        exact h2
    · exact h
  | value => exact (value_keeps h).2
  | exists_ => exact (exists_keeps h).2
  | isNull => exact (isNull_keeps h).2
  | mapping => exact (mapping_keeps L h).2
  | sequence => exact (sequence_keeps L h).2
  | primitive ty => exact (primitive_keeps L ty h).2

theorem uvalue_cfg {p : UPath} : p.uvalue.2.cfg = p.cfg := rfl

theorem act_cfg {p : UPath} (op : PathOp) : (p.act L op).cfg = p.cfg := by
  have hu : ∀ {v : Except Exc UVal} {q : UPath}, p.uvalue = (v, q) → q.cfg = p.cfg := by
    intro v q h
    have := uvalue_cfg (p := p)
    rw [h] at this
    exact this
  cases op with
  | append k => rfl
  | pop =>
    simp only [UPath.act, UPath.pop]
    repeat' split
    all_goals first
      | rfl
      | (rename_i h; repeat' split at h
         all_goals first
          | (cases h; rfl)
          | cases h)
  | value =>
    simp only [UPath.act, UPath.value]
    split <;> (rename_i heq; (have hq := hu heq; exact hq))
  | exists_ =>
    simp only [UPath.act, UPath.exists_]
    split <;> (rename_i heq; (have hq := hu heq; exact hq))
  | isNull =>
    simp only [UPath.act, UPath.isNull]
    split <;> (rename_i heq; (have hq := hu heq; exact hq))
  | mapping =>
    simp only [UPath.act, UPath.mapping]
    split
    · rename_i heq; (have hq := hu heq; exact hq)
    · rename_i heq; split <;> (have hq := hu heq; exact hq)
    · rename_i heq; (have hq := hu heq; exact hq)
    · rename_i heq; (have hq := hu heq; exact hq)
  | sequence =>
    simp only [UPath.act, UPath.sequence]
    split
    · rename_i heq; (have hq := hu heq; exact hq)
    · rename_i heq; split <;> (have hq := hu heq; exact hq)
    · rename_i heq; (have hq := hu heq; exact hq)
    · rename_i heq; (have hq := hu heq; exact hq)
  | primitive ty =>
    simp only [UPath.act, UPath.primitive]
    split
    · rename_i heq; (have hq := hu heq; exact hq)
    · rename_i heq
      split
      · (have hq := hu heq; exact hq)
      · split <;> (have hq := hu heq; exact hq)
    · rename_i heq; (have hq := hu heq; exact hq)

theorem mk'_cfg {cfg : UnionCfg} {kids : List SPath} {p : UPath} (h : mk' L cfg kids = .ok p) : p.cfg = cfg := by
  unfold mk' at h
  split at h
  · cases h
  · split at h
    · cases h
    · cases h; rfl

/-- The path of a `UnionSource` of the sources with the root paths `kids` (`union.py:96-97`), after a history of
moves and reads. -/
def Of (L : Lib) (cfg : UnionCfg) (kids : List SPath) (p : UPath) : Prop :=
  InStep 0 kids ∧ ∃ (p0 : UPath) (ops : List PathOp), mk' L cfg kids = .ok p0 ∧ p = ops.foldl (UPath.act L) p0

theorem Of.sound {cfg : UnionCfg} {kids : List SPath} {p : UPath} (h : Of L cfg kids p) : p.Sound := by
  obtain ⟨-, p0, ops, h1, rfl⟩ := h
  exact (mk'_sound h1).hist ops

theorem Of.wf {cfg : UnionCfg} {kids : List SPath} {p : UPath} (h : Of L cfg kids p) : p.WF := by
  obtain ⟨h0, p0, ops, h1, rfl⟩ := h
  have : ∀ p : UPath, p.WF → (ops.foldl (UPath.act L) p).WF := by
    induction ops with
    | nil => exact fun p h => h
    | cons op ops ih => exact fun p h => ih _ (act_wf h op)
  exact this p0 (mk'_wf L h0 h1).1

theorem Of.cfg {cfg : UnionCfg} {kids : List SPath} {p : UPath} (h : Of L cfg kids p) : p.cfg = cfg := by
  obtain ⟨h0, p0, ops, h1, rfl⟩ := h
  have : ∀ p : UPath, (ops.foldl (UPath.act L) p).cfg = p.cfg := by
    induction ops with
    | nil => exact fun p => rfl
    | cons op ops ih => exact fun p => (ih _).trans (act_cfg op)
  rw [this]
  exact mk'_cfg h1

theorem Of.act {cfg : UnionCfg} {kids : List SPath} {p : UPath} (h : Of L cfg kids p) (op : PathOp) :
    Of L cfg kids (p.act L op) := by
  obtain ⟨h0, p0, ops, h1, rfl⟩ := h
  exact ⟨h0, p0, ops ++ [op], h1, by simp⟩

/-! ## C39 -/

theorem dedup_sub (ks : List Val) : ∀ k ∈ dedup ks, k ∈ ks := by
  induction ks with
  | nil => simp [dedup]
  | cons k ks ih =>
    intro x hx
    simp only [dedup, List.mem_cons, List.mem_filter] at hx
    rcases hx with rfl | hx
    · exact List.mem_cons_self
    · exact List.mem_cons_of_mem _ (ih x hx.1)

theorem pyEq_str {k : Val} {s : String} (h : k.pyEq (.str s) = true) : k = .str s := by
  cases k <;> simp [Val.pyEq, Val.num?] at h
  rw [h]

theorem dedup_str (ks : List Val) (s : String) : Val.str s ∈ dedup ks ↔ Val.str s ∈ ks := by
  refine ⟨dedup_sub ks _, ?_⟩
  induction ks with
  | nil => simp
  | cons k ks ih =>
    intro hx
    by_cases hk : k = .str s
    · subst hk; simp [dedup]
    · simp only [dedup, List.mem_cons, List.mem_filter]
      rcases List.mem_cons.1 hx with h | h
      · exact (hk h.symm).elim
      · refine .inr ⟨ih h, ?_⟩
        cases hp : k.pyEq (.str s) with
        | true => exact (hk (pyEq_str hp)).elim
        | false => rfl

theorem dedup_distinct (ks : List Val) : (dedup ks).Pairwise fun a b => a.pyEq b = false := by
  induction ks with
  | nil => exact .nil
  | cons k ks ih =>
    simp only [dedup]
    refine .cons (fun x hx => ?_) (ih.filter _)
    have := (List.mem_filter.1 hx).2
    generalize k.pyEq x = b at this ⊢
    cases b
    · rfl
    · cases this

/-- `ks` lists the keys of the mappings `ms`, each once (equal keys count as one). -/
structure KeysOf (ms : List (Nat × List Val)) (ks : List Val) : Prop where
  sub : ∀ k ∈ ks, ∃ m ∈ ms, k ∈ m.2
  all : ∀ m ∈ ms, ∀ s, Val.str s ∈ m.2 → Val.str s ∈ ks
  once : ks.Pairwise fun a b => a.pyEq b = false

theorem mappingKeys_spec (ms : List (Nat × List Val)) : KeysOf ms (mappingKeys ms) where
  sub k hk := by
    obtain ⟨m, hm, h⟩ := List.mem_flatMap.1 (dedup_sub _ k hk)
    exact ⟨m, hm, h⟩
  all m hm s hs := (dedup_str _ s).2 (List.mem_flatMap.2 ⟨m, hm, hs⟩)
  once := dedup_distinct _

/-- After a successful `mapping()`, the path holds the mapping it answered from. -/
theorem mapping_held {p p' : UPath} {kv : KeysView} (h : p.mapping L = (.ok kv, p')) :
    ∃ ms, p'.st.Held (.mapping ms) ∧ kv.ks = mappingKeys ms ∧
      (p.uvalue = (.ok (.mapping ms), p') ∨
        ∃ cs p1 kids', p.uvalue = (.ok (.join cs), p1) ∧ mkMapping L p1.cfg none cs p1.kids = (.ok ms, kids') ∧
          p'.kids = kids' ∧ p'.cfg = p1.cfg) := by
  have hu : ∀ {v : UVal} {p1 : UPath}, p.uvalue = (.ok v, p1) → v.isNONE = false → p1.st.Held v := by
    intro v p1 h hn
    have e : p.uvalue = ((PathSt.value (fun _ kids c k => resolveUnion c k kids) UVal.isNONE p.kids p.st).1,
      { p with st := (PathSt.value (fun _ kids c k => resolveUnion c k kids) UVal.isNONE p.kids p.st).2.2,
               kids := (PathSt.value (fun _ kids c k => resolveUnion c k kids) UVal.isNONE p.kids p.st).2.1 }) := rfl
    rw [e] at h
    obtain ⟨h1, h2⟩ := Prod.mk.inj h
    rw [← h2]
    exact PathSt.value_held h1 hn
  unfold UPath.mapping at h
  split at h
  · cases h
  · rename_i cs p1 heq
    split at h
    · cases h
    · rename_i ms kids hm
      cases h
      exact ⟨ms, (hu heq rfl).setValue, rfl, .inr ⟨cs, p1, kids, heq, hm, rfl, rfl⟩⟩
  · rename_i ms p1 heq
    cases h
    exact ⟨ms, hu heq rfl, rfl, .inl heq⟩
  · cases h

/-- What a union path that stands at the sources `cs` holds after `mapping()`. -/
theorem mapping_merged {cfg : UnionCfg} {kids : List SPath} {p p1 : UPath} {cs : List Nat} (h : Of L cfg kids p)
    (hv : p.uvalue = (.ok (.join cs), p1)) (hm : mappingMode cfg none cs.length ≠ .bad) :
    ∃ r, Merged (mappingMode cfg none cs.length) (reports (SPath.keysReport L) p1.kids cs) r ∧ match r with
      | .error e => (p.mapping L).1 = .error e
      | .ok ms => ∃ kv p', p.mapping L = (.ok kv, p') ∧ KeysOf ms kv.ks ∧ p'.st.Held (.mapping ms) := by
  obtain ⟨h1, h2, h3⟩ := h.sound.uvalue
  have hc := uvalue_cfg (p := p)
  rw [hv] at h2 h3 hc
  obtain ⟨hn, hb⟩ := h3 _ rfl
  rw [← show p1.kids.length = p.kids.length from h2] at hb
  rw [h.cfg] at hc
  subst hc
  refine ⟨_, (mkMapping_merged hn hb hm).1, ?_⟩
  cases hr : mkMapping L p1.cfg none cs p1.kids with
  | mk r kids' =>
    cases r with
    | error e =>
      dsimp only
      unfold UPath.mapping
      rw [hv]
      dsimp only
      rw [hr]
    | ok ms =>
      have e : p.mapping L = (.ok { ks := mappingKeys ms }, { p1 with st := p1.st.setValue (.mapping ms), kids := kids' }) := by
        unfold UPath.mapping
        rw [hv]
        dsimp only
        rw [hr]
      refine ⟨_, _, e, mappingKeys_spec ms, ?_⟩
      have hu : p1.st.Held (.join cs) := by
        have e : p.uvalue = ((PathSt.value (fun _ kids c k => resolveUnion c k kids) UVal.isNONE p.kids p.st).1,
          { p with st := (PathSt.value (fun _ kids c k => resolveUnion c k kids) UVal.isNONE p.kids p.st).2.2,
                   kids := (PathSt.value (fun _ kids c k => resolveUnion c k kids) UVal.isNONE p.kids p.st).2.1 }) := rfl
        rw [e] at hv
        obtain ⟨h1, h2⟩ := Prod.mk.inj hv
        rw [← h2]
        exact PathSt.value_held h1 rfl
      exact hu.setValue

/-- C39. Asked for a mapping, a union path (after any history) that stands at the sources `cs` answers with the
keys of the merge of what these sources report: with `combine` all present, non-null mappings contribute, with
`first` the first source at which there is something (nothing if it is null), with `last` the last present, non-null
one.  Absent sources never contribute.  If the merge fails, so does the read.  (Without a `merge_depth`; for that
see C42.) -/
theorem C39_mapping {cfg : UnionCfg} {kids : List SPath} {p p1 : UPath} {cs : List Nat} (h : Of L cfg kids p)
    (hv : p.uvalue = (.ok (.join cs), p1)) (hd : cfg.mergeDepth = none) (hm : cfg.mappingMerge ≠ .bad) :
    ∃ r, Merged cfg.mappingMerge (reports (SPath.keysReport L) p1.kids cs) r ∧ match r with
      | .error e => (p.mapping L).1 = .error e
      | .ok ms => ∃ kv, (p.mapping L).1 = .ok kv ∧ KeysOf ms kv.ks := by
  have e : mappingMode cfg none cs.length = cfg.mappingMerge := by simp [mappingMode, hd]
  obtain ⟨r, h1, h2⟩ := mapping_merged h hv (by rwa [e])
  rw [e] at h1
  refine ⟨r, h1, ?_⟩
  cases r with
  | error e => exact h2
  | ok ms =>
    obtain ⟨kv, p', h3, h4, -⟩ := h2
    exact ⟨kv, by rw [h3], h4⟩

/-- C39, for a merge mode that is none of the three: the read fails. -/
theorem C39_bad {cfg : UnionCfg} {kids : List SPath} {p p1 : UPath} {cs : List Nat} (h : Of L cfg kids p)
    (hv : p.uvalue = (.ok (.join cs), p1)) (hd : cfg.mergeDepth = none) (hm : cfg.mappingMerge = .bad) :
    (p.mapping L).1 = .error (.valueError "merge invalid") := by
  have hc := uvalue_cfg (p := p)
  rw [hv, h.cfg] at hc
  dsimp only at hc
  subst hc
  unfold UPath.mapping
  rw [hv]
  dsimp only
  have := mkMapping_bad (L := L) (cfg := p1.cfg) (merge := none) (cs := cs) (kids := p1.kids) (by simp [mappingMode, hd, hm])
  cases hr : mkMapping L p1.cfg none cs p1.kids with
  | mk r kids' =>
    rw [hr] at this
    dsimp only at this
    subst this
    rfl

/-- C39, at the root: there the mappings of all sources are combined, whatever the merge mode; a source that
cannot be read as a mapping makes the union unusable. -/
theorem C39_root {cfg : UnionCfg} {kids : List SPath} (hk : kids ≠ []) :
    ∃ r, Merged .combine (reports (SPath.keysReport L) kids (List.range kids.length)) r ∧ match r with
      | .error e => mk' L cfg kids = .error e
      | .ok ms => ∃ p kv, mk' L cfg kids = .ok p ∧ (p.mapping L).1 = .ok kv ∧ KeysOf ms kv.ks := by
  have hb : ∀ c ∈ List.range kids.length, c < kids.length := fun c hc => List.mem_range.1 hc
  refine ⟨_, (mkMapping_merged (L := L) (cfg := cfg) (merge := some .combine) List.nodup_range hb (by simp [mappingMode])).1, ?_⟩
  unfold mk'
  rw [if_neg (by simpa using hk)]
  cases hr : mkMapping L cfg (some .combine) (List.range kids.length) kids with
  | mk r kids' =>
    cases r with
    | error e => rfl
    | ok ms => exact ⟨_, _, rfl, rfl, mappingKeys_spec ms⟩

/-! ## C40 -/

theorem Held.uvalue {p : UPath} {v : UVal} (h : p.st.Held v) : p.uvalue = (.ok v, p) := by
  unfold UPath.uvalue
  rw [h.value]

/-- Below a container at hand: one key further. -/
theorem Held.append_uvalue {p : UPath} {v : UVal} (h : p.st.Held v) {k : Val} (hk : (k.isIntLike || k.isStr) = true)
    {w : UVal} {kids' : List SPath} (hr : resolveUnion v k (p.kids.map (·.append k)) = (.ok w, kids')) :
    (p.append k).uvalue = (.ok w, { p with st := (p.st.append k).setValue w, kids := kids' }) := by
  unfold UPath.uvalue UPath.append
  dsimp only
  rw [h.append_value hk, hr]

/-- The sources, in order, whose mapping lists the key. -/
def listing (ms : List (Nat × List Val)) (k : Val) : List Nat := (ms.filter fun m => k.inList m.2).map Prod.fst

/-- A key below a mapping at hand leads to the sources that list it, in order. -/
theorem held_lookup {p : UPath} {ms : List (Nat × List Val)} (h1 : p.st.Held (.mapping ms)) {k : Val}
    (hk : (k.isIntLike || k.isStr) = true) :
    (p.append k).exists_.1 = .ok (!(listing ms k).isEmpty) ∧
      (listing ms k ≠ [] → (p.append k).uvalue.1 = .ok (.join (listing ms k))) := by
  have hr : resolveUnion (.mapping ms) k (p.kids.map (·.append k)) =
      (.ok (match listing ms k with | [] => .val .NONE | c :: cs => .join (c :: cs)), p.kids.map (·.append k)) := by
    unfold resolveUnion unionGet mappingGet listing
    dsimp only
    cases (ms.filter fun m => k.inList m.2).map Prod.fst <;> rfl
  have h3 := Held.append_uvalue h1 hk hr
  unfold UPath.exists_
  rw [h3]
  cases listing ms k with
  | nil => exact ⟨rfl, fun h => (h rfl).elim⟩
  | cons c cs => exact ⟨rfl, fun _ => rfl⟩

/-- A primitive below a mapping at hand is read from the first source that lists the key. -/
theorem held_primitive {p : UPath} {ms : List (Nat × List Val)} (h1 : p.st.Held (.mapping ms)) {k : Val}
    (hk : (k.isIntLike || k.isStr) = true) (ty : PTy) :
    (∀ c cs q, listing ms k = c :: cs → p.kids[c]? = some q →
        ((p.append k).primitive L ty).1 = ((q.append k).primitive L ty).1) ∧
      (listing ms k = [] → ((p.append k).primitive L ty).1 = .ok .NONE) := by
  refine ⟨fun c cs q hl hq => ?_, fun hl => ?_⟩
  · have hr : resolveUnion (.mapping ms) k (p.kids.map (·.append k)) = (.ok (.join (c :: cs)), p.kids.map (·.append k)) := by
      unfold resolveUnion unionGet mappingGet
      unfold listing at hl
      dsimp only
      rw [hl]
    unfold UPath.primitive
    rw [Held.append_uvalue h1 hk hr]
    dsimp only
    have hq' : (p.kids.map (·.append k))[c]? = some (q.append k) := by simp [hq]
    rw [onChild_some hq']
    cases hp : ((q.append k).primitive L ty).1 <;> rfl
  · have hr : resolveUnion (.mapping ms) k (p.kids.map (·.append k)) = (.ok (.val .NONE), p.kids.map (·.append k)) := by
      unfold resolveUnion unionGet mappingGet
      unfold listing at hl
      dsimp only
      rw [hl]
    unfold UPath.primitive
    rw [Held.append_uvalue h1 hk hr]
    rfl

theorem mapping_mode {p p' p1 : UPath} {cs : List Nat} {kv : KeysView} (hv : p.uvalue = (.ok (.join cs), p1))
    (h : p.mapping L = (.ok kv, p')) : mappingMode p1.cfg none cs.length ≠ .bad := by
  intro hb
  unfold UPath.mapping at h
  rw [hv] at h
  dsimp only at h
  have := mkMapping_bad (L := L) (kids := p1.kids) hb
  cases hr : mkMapping L p1.cfg none cs p1.kids with
  | mk r kids' =>
    rw [hr] at this
    dsimp only at this
    subst this
    rw [hr] at h
    cases h

/-- C40. When a union path that stands at the sources `cs` (after any history) has been read as a mapping, there are
the contributions `ms` of the merge of C39, and: a key leads to the sources, in order, whose contribution lists it
(to nothing if none does), and a primitive read there gives what the first of these sources gives at its own path,
extended by the key. -/
theorem C40_lookup {cfg : UnionCfg} {kids : List SPath} {p p1 p' : UPath} {cs : List Nat} {kv : KeysView}
    (h0 : Of L cfg kids p) (hv : p.uvalue = (.ok (.join cs), p1)) (hd : cfg.mergeDepth = none)
    (h : p.mapping L = (.ok kv, p')) :
    ∃ ms, Merged cfg.mappingMerge (reports (SPath.keysReport L) p1.kids cs) (.ok ms) ∧ KeysOf ms kv.ks ∧
      ∀ k : Val, (k.isIntLike || k.isStr) = true →
        (p'.append k).exists_.1 = .ok (!(listing ms k).isEmpty) ∧
        (listing ms k ≠ [] → (p'.append k).uvalue.1 = .ok (.join (listing ms k))) ∧
        ∀ ty, (∀ c cs q, listing ms k = c :: cs → p'.kids[c]? = some q →
            ((p'.append k).primitive L ty).1 = ((q.append k).primitive L ty).1) ∧
          (listing ms k = [] → ((p'.append k).primitive L ty).1 = .ok .NONE) := by
  have hc := uvalue_cfg (p := p)
  rw [hv, h0.cfg] at hc
  have hm := mapping_mode hv h
  rw [show p1.cfg = cfg from hc] at hm
  obtain ⟨r, h1, h2⟩ := mapping_merged h0 hv hm
  cases r with
  | error e => rw [h] at h2; cases h2
  | ok ms =>
    obtain ⟨kv', p'', h3, h4, h5⟩ := h2
    rw [h] at h3
    cases h3
    rw [show mappingMode cfg none cs.length = cfg.mappingMerge by simp [mappingMode, hd]] at h1
    exact ⟨ms, h1, h4, fun k hk => ⟨(held_lookup h5 hk).1, (held_lookup h5 hk).2, fun ty => held_primitive h5 hk ty⟩⟩

/-- C40, at the root. -/
theorem C40_root {cfg : UnionCfg} {kids : List SPath} {p : UPath} (h : mk' L cfg kids = .ok p) :
    ∃ ms, Merged .combine (reports (SPath.keysReport L) kids (List.range kids.length)) (.ok ms) ∧
      ∀ k : Val, (k.isIntLike || k.isStr) = true →
        (p.append k).exists_.1 = .ok (!(listing ms k).isEmpty) ∧
        (listing ms k ≠ [] → (p.append k).uvalue.1 = .ok (.join (listing ms k))) ∧
        ∀ ty, (∀ c cs q, listing ms k = c :: cs → p.kids[c]? = some q →
            ((p.append k).primitive L ty).1 = ((q.append k).primitive L ty).1) ∧
          (listing ms k = [] → ((p.append k).primitive L ty).1 = .ok .NONE) := by
  have hb : ∀ c ∈ List.range kids.length, c < kids.length := fun c hc => List.mem_range.1 hc
  have hm := (mkMapping_merged (L := L) (cfg := cfg) (merge := some .combine) List.nodup_range hb (by simp [mappingMode])).1
  unfold mk' at h
  split at h
  · cases h
  · split at h
    · cases h
    · rename_i ms kids' heq
      cases h
      rw [heq] at hm
      have h5 : PathSt.Held ({ root := UVal.mapping ms, parts := [] } : PathSt UVal) (.mapping ms) := .inl ⟨rfl, rfl⟩
      exact ⟨ms, hm, fun k hk => ⟨(held_lookup h5 hk).1, (held_lookup h5 hk).2, fun ty => held_primitive h5 hk ty⟩⟩

/-! ## C41 -/

/-- After a successful `sequence()`, the path holds the sequence it answered from. -/
theorem sequence_held {p p' : UPath} {n : Nat} (h : p.sequence L = (.ok n, p')) :
    ∃ ss, p'.st.Held (.seq ss) ∧ n = (ss.map Prod.snd).sum ∧
      (p.uvalue = (.ok (.seq ss), p') ∨
        ∃ cs p1 kids', p.uvalue = (.ok (.join cs), p1) ∧ sequenceLoop L p1.cfg cs none [] p1.kids = (.ok ss, kids') ∧
          p'.kids = kids' ∧ p'.cfg = p1.cfg) := by
  have hu : ∀ {v : UVal} {p1 : UPath}, p.uvalue = (.ok v, p1) → v.isNONE = false → p1.st.Held v := by
    intro v p1 h hn
    have e : p.uvalue = ((PathSt.value (fun _ kids c k => resolveUnion c k kids) UVal.isNONE p.kids p.st).1,
      { p with st := (PathSt.value (fun _ kids c k => resolveUnion c k kids) UVal.isNONE p.kids p.st).2.2,
               kids := (PathSt.value (fun _ kids c k => resolveUnion c k kids) UVal.isNONE p.kids p.st).2.1 }) := rfl
    rw [e] at h
    obtain ⟨h1, h2⟩ := Prod.mk.inj h
    rw [← h2]
    exact PathSt.value_held h1 hn
  unfold UPath.sequence at h
  split at h
  · cases h
  · rename_i cs p1 heq
    split at h
    · cases h
    · rename_i ss kids hm
      cases h
      exact ⟨ss, (hu heq rfl).setValue, rfl, .inr ⟨cs, p1, kids, heq, hm, rfl, rfl⟩⟩
  · rename_i ss p1 heq
    cases h
    exact ⟨ss, hu heq rfl, rfl, .inl heq⟩
  · cases h

/-- What a union path that stands at the sources `cs` holds after `sequence()`. -/
theorem sequence_picked {cfg : UnionCfg} {kids : List SPath} {p p1 : UPath} {cs : List Nat} (h : Of L cfg kids p)
    (hv : p.uvalue = (.ok (.join cs), p1)) (hm : sequenceMode cfg p.keys.length ≠ .bad)
    (hf : ∀ r ∈ reports (SPath.lenReport L) p1.kids cs, ∀ e, r.2 ≠ .fails e) :
    ∃ p', p.sequence L = (.ok ((pick (sequenceMode cfg p.keys.length)
      (given (reports (SPath.lenReport L) p1.kids cs))).map Prod.snd).sum, p') ∧
      p'.st.Held (.seq (pick (sequenceMode cfg p.keys.length) (given (reports (SPath.lenReport L) p1.kids cs)))) := by
  have hw := h.wf
  have hc := uvalue_cfg (p := p)
  rw [hv, h.cfg] at hc
  dsimp only at hc
  subst hc
  obtain ⟨h1, h2, h3⟩ := h.sound.uvalue
  have hw1 := uvalue_wf hw
  have hk1 := uvalue_keys p
  rw [hv] at h2 h3 hw1 hk1
  obtain ⟨hn, hb⟩ := h3 _ rfl
  rw [← show p1.kids.length = p.kids.length from h2] at hb
  have hd : ∀ c ∈ cs, ∀ q, p1.kids[c]? = some q → q.keys.length = p.keys.length := by
    intro c _ q hq
    have := hw1.kids q (List.mem_of_getElem? hq)
    rw [this]
    exact congrArg List.length hk1
  obtain ⟨kids', h4, -⟩ := sequenceLoop_all (L := L) hm (m := none) (acc := []) hn hb hd (.inl rfl) (fun _ => by simp) hf
  rw [List.nil_append] at h4
  have e : p.sequence L = (.ok (seqTotal (pick (sequenceMode p1.cfg p.keys.length)
      (given (reports (SPath.lenReport L) p1.kids cs)))),
      { p1 with st := p1.st.setValue (.seq (pick (sequenceMode p1.cfg p.keys.length)
        (given (reports (SPath.lenReport L) p1.kids cs)))), kids := kids' }) := by
    unfold UPath.sequence
    rw [hv]
    dsimp only
    rw [h4]
  refine ⟨_, e, ?_⟩
  have hu : p1.st.Held (.join cs) := by
    have e : p.uvalue = ((PathSt.value (fun _ kids c k => resolveUnion c k kids) UVal.isNONE p.kids p.st).1,
      { p with st := (PathSt.value (fun _ kids c k => resolveUnion c k kids) UVal.isNONE p.kids p.st).2.2,
               kids := (PathSt.value (fun _ kids c k => resolveUnion c k kids) UVal.isNONE p.kids p.st).2.1 }) := rfl
    rw [e] at hv
    obtain ⟨h1, h2⟩ := Prod.mk.inj hv
    rw [← h2]
    exact PathSt.value_held h1 rfl
  exact hu.setValue

/-- C41. Asked for a sequence, a union path (after any history) that stands at the sources `cs` answers with the
total length of the sequences it picks from the present, non-null ones: all, the first or the last, as configured. -/
theorem C41_sequence {cfg : UnionCfg} {kids : List SPath} {p p1 : UPath} {cs : List Nat} (h : Of L cfg kids p)
    (hv : p.uvalue = (.ok (.join cs), p1)) (hd : cfg.mergeDepth = none) (hm : cfg.sequenceMerge ≠ .bad)
    (hf : ∀ r ∈ reports (SPath.lenReport L) p1.kids cs, ∀ e, r.2 ≠ .fails e) :
    (p.sequence L).1 = .ok ((pick cfg.sequenceMerge (given (reports (SPath.lenReport L) p1.kids cs))).map Prod.snd).sum := by
  have e : sequenceMode cfg p.keys.length = cfg.sequenceMerge := by simp [sequenceMode, hd]
  obtain ⟨p', h1, -⟩ := sequence_picked h hv (by rwa [e]) hf
  rw [h1, e]

/-- Position `i` of a concatenation lies in the part `x`, at position `j` of it. -/
def LiesIn (ss : List (Nat × Nat)) (i : Nat) (x : Nat × Nat) (j : Nat) : Prop :=
  ∃ pre post, ss = pre ++ x :: post ∧ i = (pre.map Prod.snd).sum + j ∧ j < x.2

theorem seqFind_spec (ss : List (Nat × Nat)) : ∀ (o i : Nat),
    (i < (ss.map Prod.snd).sum → ∃ x j, LiesIn ss i x j ∧ seqFind ((o + i : Nat) : Int) o ss = some (x.1, o + i - j)) ∧
    ((ss.map Prod.snd).sum ≤ i → seqFind ((o + i : Nat) : Int) o ss = none) := by
  induction ss with
  | nil => intro o i; exact ⟨fun h => by simp at h, fun _ => rfl⟩
  | cons x ss ih =>
    intro o i
    obtain ⟨c, n⟩ := x
    simp only [List.map_cons, List.sum_cons, seqFind]
    by_cases hi : i < n
    · refine ⟨fun _ => ⟨(c, n), i, ⟨[], ss, rfl, by simp, hi⟩, ?_⟩, fun h => by omega⟩
      rw [if_pos (by omega)]
      simp
    · rw [if_neg (by omega)]
      obtain ⟨h1, h2⟩ := ih (o + n) (i - n)
      have e : ((o + n + (i - n) : Nat) : Int) = ((o + i : Nat) : Int) := by omega
      rw [e] at h1 h2
      refine ⟨fun h => ?_, fun h => h2 (by omega)⟩
      obtain ⟨x, j, ⟨pre, post, h3, h4, h5⟩, h6⟩ := h1 (by omega)
      refine ⟨x, j, ⟨(c, n) :: pre, post, by rw [h3]; rfl, ?_, h5⟩, ?_⟩
      · simp only [List.map_cons, List.sum_cons]; omega
      · rw [h6]
        simp only [Option.some.injEq, Prod.mk.injEq, true_and]
        omega

theorem shiftLast_append (q : SPath) (i o : Nat) : (q.append (.int i)).shiftLast o = q.append (.int ((i : Int) - o)) := by
  cases q <;> simp [SPath.append, SPath.shiftLast, Pilo.shiftLast, PathSt.append, Part.ofKey, Val.index?, Val.isIntLike]

theorem endsInInt_append (q : SPath) (i : Int) : (q.append (.int i)).endsInInt = true := by
  unfold SPath.endsInInt
  rw [SPath.keys_append]
  simp [Val.isIntLike]

/-- An item of a sequence at hand is the item of the part in which its position lies. -/
theorem held_item {p' : UPath} {ss : List (Nat × Nat)} (hs : p'.Sound) (h1 : p'.st.Held (.seq ss)) (i : Nat) (ty : PTy) :
    (i < (ss.map Prod.snd).sum → ∃ x j q, LiesIn ss i x j ∧ p'.kids[x.1]? = some q ∧
        (p'.append (.int i)).exists_.1 = .ok true ∧
        ((p'.append (.int i)).primitive L ty).1 = ((q.append (.int j)).primitive L ty).1) ∧
      ((ss.map Prod.snd).sum ≤ i → (p'.append (.int i)).exists_.1 = .ok false) := by
  refine ⟨fun hi => ?_, fun hi => ?_⟩
  · obtain ⟨x, j, hl, hf⟩ := (seqFind_spec ss 0 i).1 (by omega)
    obtain ⟨pre, post, h3, h4, h5⟩ := hl
    have hx : x.1 < p'.kids.length := by
      have hfine := (hs.uvalue).2.2 (.seq ss) (by rw [Held.uvalue h1])
      exact hfine x (by rw [h3]; simp)
    obtain ⟨q, hq⟩ : ∃ q, p'.kids[x.1]? = some q := ⟨_, List.getElem?_eq_getElem hx⟩
    have hq' : (p'.kids.map (·.append (.int i)))[x.1]? = some (q.append (.int i)) := by simp [hq]
    have hsh : (q.append (.int i)).shiftLast (0 + i - j) = q.append (.int j) := by
      rw [shiftLast_append]
      congr 2
      omega
    have hr : resolveUnion (.seq ss) (.int i) (p'.kids.map (·.append (.int i))) =
        (.ok (.join [x.1]), (p'.kids.map (·.append (.int i))).set x.1 (q.append (.int j))) := by
      simp only [Nat.zero_add] at hf hsh
      simp only [resolveUnion, unionGet, seqGet, Val.index?, hf, hq', hsh, endsInInt_append, if_true]
    refine ⟨x, j, q, ⟨pre, post, h3, h4, h5⟩, hq, ?_, ?_⟩
    · unfold UPath.exists_
      rw [Held.append_uvalue h1 rfl hr]
      rfl
    · unfold UPath.primitive
      rw [Held.append_uvalue h1 rfl hr]
      dsimp only
      rw [onChild_some (set_get hq')]
      cases hp : ((q.append (.int j)).primitive L ty).1 <;> rfl
  · have hf := (seqFind_spec ss 0 i).2 (by omega)
    simp only [Nat.zero_add] at hf
    have hr : resolveUnion (.seq ss) (.int i) (p'.kids.map (·.append (.int i))) =
        (.ok (.val .NONE), p'.kids.map (·.append (.int i))) := by
      simp only [resolveUnion, unionGet, seqGet, Val.index?, hf]
    unfold UPath.exists_
    rw [Held.append_uvalue h1 rfl hr]
    rfl

/-- C41. When a union path that stands at the sources `cs` (after any history) has been read as a sequence of
length `n`, its item `i < n` is item `j` of the part in which position `i` of the concatenation of the picked parts
lies; from `n` on there is nothing. -/
theorem C41_item {cfg : UnionCfg} {kids : List SPath} {p p1 p' : UPath} {cs : List Nat} {n : Nat} (h0 : Of L cfg kids p)
    (hv : p.uvalue = (.ok (.join cs), p1)) (hd : cfg.mergeDepth = none) (hm : cfg.sequenceMerge ≠ .bad)
    (hf : ∀ r ∈ reports (SPath.lenReport L) p1.kids cs, ∀ e, r.2 ≠ .fails e)
    (h : p.sequence L = (.ok n, p')) (i : Nat) (ty : PTy) :
    (i < n → ∃ x j q, LiesIn (pick cfg.sequenceMerge (given (reports (SPath.lenReport L) p1.kids cs))) i x j ∧
        p'.kids[x.1]? = some q ∧ (p'.append (.int i)).exists_.1 = .ok true ∧
        ((p'.append (.int i)).primitive L ty).1 = ((q.append (.int j)).primitive L ty).1) ∧
      (n ≤ i → (p'.append (.int i)).exists_.1 = .ok false) := by
  have hs : p'.Sound := by
    have := h0.sound.sequence (L := L)
    rw [h] at this
    exact this
  have e : sequenceMode cfg p.keys.length = cfg.sequenceMerge := by simp [sequenceMode, hd]
  obtain ⟨p'', h1, h2⟩ := sequence_picked h0 hv (by rwa [e]) hf
  rw [h, e] at h1
  cases h1
  rw [e] at h2
  exact held_item hs h2 i ty

/-! ## C42 -/

/-- What `merge_depth` is meant to do: from that depth on, the first source wins. -/
def limited (d : Option Nat) (m : Merge) (depth : Nat) : Merge :=
  match d with
  | none => m
  | some d => if d ≤ depth then .first else m

/-- C42, for sequences: at depth `merge_depth` and below, the first source's sequence is taken; above, the configured
merge applies. -/
theorem C42_sequence_partial {cfg : UnionCfg} {kids : List SPath} {p p1 : UPath} {cs : List Nat} (h : Of L cfg kids p)
    (hv : p.uvalue = (.ok (.join cs), p1)) (hm : limited cfg.mergeDepth cfg.sequenceMerge p.keys.length ≠ .bad)
    (hf : ∀ r ∈ reports (SPath.lenReport L) p1.kids cs, ∀ e, r.2 ≠ .fails e) :
    (p.sequence L).1 = .ok ((pick (limited cfg.mergeDepth cfg.sequenceMerge p.keys.length)
      (given (reports (SPath.lenReport L) p1.kids cs))).map Prod.snd).sum := by
  have e : sequenceMode cfg p.keys.length = limited cfg.mergeDepth cfg.sequenceMerge p.keys.length := by
    unfold sequenceMode limited
    split <;> rename_i he <;> rw [he]
  obtain ⟨p', h1, -⟩ := sequence_picked h hv (by rwa [e]) hf
  rw [h1, e]

/-- C42, what holds for mappings: the merge is limited by the number of sources joined, not by the depth of the
path; so the claim holds where these two lie on the same side of `merge_depth`. -/
theorem C42_mapping_partial {cfg : UnionCfg} {kids : List SPath} {p p1 : UPath} {cs : List Nat} (h : Of L cfg kids p)
    (hv : p.uvalue = (.ok (.join cs), p1)) (hd : ∀ d, cfg.mergeDepth = some d → (d ≤ cs.length ↔ d ≤ p.keys.length))
    (hm : limited cfg.mergeDepth cfg.mappingMerge p.keys.length ≠ .bad) :
    ∃ r, Merged (limited cfg.mergeDepth cfg.mappingMerge p.keys.length) (reports (SPath.keysReport L) p1.kids cs) r ∧
      match r with
      | .error e => (p.mapping L).1 = .error e
      | .ok ms => ∃ kv, (p.mapping L).1 = .ok kv ∧ KeysOf ms kv.ks := by
  have e : mappingMode cfg none cs.length = limited cfg.mergeDepth cfg.mappingMerge p.keys.length := by
    unfold mappingMode limited
    dsimp only
    cases he : cfg.mergeDepth with
    | none => rfl
    | some d =>
      have := hd d he
      dsimp only
      by_cases hx : d ≤ cs.length
      · rw [if_pos hx, if_pos (this.1 hx)]
      · rw [if_neg hx, if_neg (fun h => hx (this.2 h))]
  obtain ⟨r, h1, h2⟩ := mapping_merged h hv (by rwa [e])
  rw [e] at h1
  refine ⟨r, h1, ?_⟩
  cases r with
  | error e => exact h2
  | ok ms =>
    obtain ⟨kv, p', h3, h4, -⟩ := h2
    exact ⟨kv, by rw [h3], h4⟩

/-! ## Examples and counterexamples -/

namespace Ex

/-- `{'m': {'x': 1, 'y': 2}, 's': [1, 2], 'n': None}`. -/
def a : SPath := .dflt {} { root := .dict [(.str "m", .dict [(.str "x", .int 1), (.str "y", .int 2)]),
  (.str "s", .list [.int 1, .int 2]), (.str "n", .none)], parts := [] }
/-- `{'m': {'y': 3, 'z': 4}, 's': [3], 'n': {'w': 5}}`. -/
def b : SPath := .json true none { root := .dict [(.str "m", .dict [(.str "y", .int 3), (.str "z", .int 4)]),
  (.str "s", .list [.int 3]), (.str "n", .dict [(.str "w", .int 5)])], parts := [] }

/-- The keys and the length a union of `a` and `b` reports after a history of moves and reads. -/
def keysAt (cfg : UnionCfg) (ops : List PathOp) : Option (List Val) :=
  match mk' Demo.lib cfg [a, b] with
  | .error _ => none
  | .ok p => match ((ops.foldl (UPath.act Demo.lib) p).mapping Demo.lib).1 with
    | .error _ => none
    | .ok kv => some kv.ks
def lenAt (cfg : UnionCfg) (ops : List PathOp) : Option Nat :=
  match mk' Demo.lib cfg [a, b] with
  | .error _ => none
  | .ok p => ((ops.foldl (UPath.act Demo.lib) p).sequence Demo.lib).1.toOption
def intAt (cfg : UnionCfg) (ops : List PathOp) : Option Val :=
  match mk' Demo.lib cfg [a, b] with
  | .error _ => none
  | .ok p => ((ops.foldl (UPath.act Demo.lib) p).primitive Demo.lib .int).1.toOption

/-- The sources at which a union of `a` and `b` stands. -/
def joinAt (cfg : UnionCfg) (ops : List PathOp) : Option (List Nat) :=
  match mk' Demo.lib cfg [a, b] with
  | .error _ => none
  | .ok p => match (ops.foldl (UPath.act Demo.lib) p).uvalue.1 with
    | .ok (.join cs) => some cs
    | _ => none

theorem joinAt_spec {cfg : UnionCfg} {ops : List PathOp} {cs : List Nat} (h : joinAt cfg ops = some cs) :
    ∃ p p1, Of Demo.lib cfg [a, b] p ∧ p.uvalue = (.ok (.join cs), p1) := by
  unfold joinAt at h
  split at h
  · cases h
  · rename_i p hp
    split at h
    · rename_i cs' hc
      cases h
      refine ⟨_, (ops.foldl (UPath.act Demo.lib) p).uvalue.2, ⟨?_, p, ops, hp, rfl⟩, Prod.ext hc rfl⟩
      intro c hc
      simp only [List.mem_cons, List.not_mem_nil, or_false] at hc
      rcases hc with rfl | rfl <;> rfl
    · cases h

/-- The hypotheses of C39 to C42: a union path, after a history, standing at both sources. -/
example : ∃ p p1, Of Demo.lib { mappingMerge := .combine } [a, b] p ∧ p.uvalue = (.ok (.join [0, 1]), p1) :=
  joinAt_spec (ops := [.mapping, .append (.str "s"), .sequence, .pop, .append (.str "m")]) (by decide +kernel)

example : keysAt { mappingMerge := .combine } [.append (.str "m")] = some [.str "x", .str "y", .str "z"] := by decide +kernel
example : keysAt { mappingMerge := .first } [.append (.str "m")] = some [.str "x", .str "y"] := by decide +kernel
example : keysAt { mappingMerge := .last } [.append (.str "m")] = some [.str "y", .str "z"] := by decide +kernel
example : keysAt { mappingMerge := .first } [.append (.str "n")] = some [] := by decide +kernel
example : keysAt { mappingMerge := .combine } [.append (.str "n")] = some [.str "w"] := by decide +kernel
example : keysAt { mappingMerge := .bad } [.append (.str "m")] = none := by decide +kernel
example : keysAt { mappingMerge := .last } [] = some [.str "m", .str "s", .str "n"] := by decide +kernel
example : intAt { mappingMerge := .combine } [.append (.str "m"), .mapping, .append (.str "y")] = some (.int 2) := by decide +kernel
example : intAt { mappingMerge := .combine } [.append (.str "m"), .mapping, .append (.str "z")] = some (.int 4) := by decide +kernel
example : intAt { mappingMerge := .last } [.append (.str "m"), .mapping, .append (.str "y")] = some (.int 3) := by decide +kernel
example : lenAt { sequenceMerge := .combine } [.append (.str "s")] = some 3 := by decide +kernel
example : lenAt { sequenceMerge := .first } [.append (.str "s")] = some 2 := by decide +kernel
example : lenAt { sequenceMerge := .last } [.append (.str "s")] = some 1 := by decide +kernel
example : intAt { sequenceMerge := .combine } [.append (.str "s"), .sequence, .append (.int 2)] = some (.int 3) := by decide +kernel
example : intAt { sequenceMerge := .last } [.append (.str "s"), .sequence, .append (.int 0)] = some (.int 3) := by decide +kernel
example : lenAt { sequenceMerge := .combine, mergeDepth := some 1 } [.append (.str "s")] = some 2 := by decide +kernel
example : lenAt { sequenceMerge := .combine, mergeDepth := some 2 } [.append (.str "s")] = some 3 := by decide +kernel

/-- C42 is false for mappings: with `merge_depth=2` the two mappings at `m`, at depth 1, ought to be combined; but
two sources are joined there, and the first wins. -/
theorem C42_shallow_counterexample :
    limited (some 2) .combine 1 = .combine ∧
    keysAt { mappingMerge := .combine, mergeDepth := some 2 } [.append (.str "m")] = some [.str "x", .str "y"] := by
  decide +kernel

/-- `{'p': {'q': {'r': {x: 1}}}}`. -/
def deep (x : String) : SPath :=
  .dflt {} { root := .dict [(.str "p", .dict [(.str "q", .dict [(.str "r", .dict [(.str x, .int 1)])])])], parts := [] }

/-- C42 is false for mappings: with `merge_depth=3` the mappings at depth 3 ought not to be combined, but they are. -/
theorem C42_deep_counterexample :
    limited (some 3) .combine 3 = .first ∧
    ((match mk' Demo.lib { mappingMerge := .combine, mergeDepth := some 3 } [deep "x", deep "y"] with
      | .error _ => none
      | .ok p => match (([.append (.str "p"), .mapping, .append (.str "q"), .mapping, .append (.str "r")].foldl
          (UPath.act Demo.lib) p).mapping Demo.lib).1 with
        | .error _ => none
        | .ok kv => some kv.ks) : Option (List Val)) = some [.str "x", .str "y"] := by
  decide +kernel

/-- A union path below a `Join` that has not been read as a mapping finds nothing: `m.y` is there, but only after
`mapping()` at `m`. -/
theorem C40_unread_counterexample :
    intAt { mappingMerge := .combine } [.append (.str "m"), .append (.str "y")] = some .NONE ∧
    intAt { mappingMerge := .combine } [.append (.str "m"), .mapping, .append (.str "y")] = some (.int 2) := by
  decide +kernel

end Ex

end UPath

/-! ## A member source of a union -/

/-- The kind of a path: everything but its position and cache. -/
inductive SKind where
  | dflt (cfg : DefaultCfg)
  | json (strict : Bool) (loc : Option String)
  | config (cfg : ConfigCfg)

def SPath.kind : SPath → SKind
  | .dflt cfg _ => .dflt cfg
  | .json s l _ => .json s l
  | .config cfg _ => .config cfg

/-- Sources of native data that ignore nothing, and JSON sources. -/
def SKind.Plain : SKind → Prop
  | .dflt cfg => cfg.ignores = []
  | .json _ _ => True
  | .config _ => False

/-- How a source of this kind reads a primitive (`default.py:92-93`, `json.py:115-117`). -/
def SKind.parse (L : Lib) (ty : PTy) (v : Val) : SKind → Except Exc Val
  | .dflt _ => parseNative L ty v
  | .json s _ => parseJson L s ty v
  | .config _ => .error .recursion

/-- The path `q`, of a source of kind `t`, stands at the value `v`. -/
structure Kid (L : Lib) (t : SKind) (q : SPath) (v : Val) : Prop where
  plain : t.Plain
  kind : q.kind = t
  value : (q.value L).1 = .ok v
  there : v ≠ .NONE

/-- The value at which the path stands has been read. -/
def SPath.Held : SPath → Val → Prop
  | .dflt _ st, v => st.Held v
  | .json _ _ st, v => st.Held v
  | .config _ _, _ => False

theorem isNONE_false {v : Val} (h : v ≠ .NONE) : v.isNONE = false := by
  cases v <;> first | rfl | skip
  rename_i c
  cases c <;> first | rfl | exact (h rfl).elim

/-- Reading: the answer depends on the value only, and the value is then at hand. -/
theorem Kid.read {t : SKind} {q : SPath} {v : Val} (h : Kid L t q v) {α : Type}
    (aD : DefaultCfg → List Val → Val → Except Exc α) (aJ : Bool → Val → Except Exc α)
    (aC : ConfigCfg → List Val → CfgVal → Except Exc α) :
    ∃ q', (∀ {β : Type} (bD : DefaultCfg → List Val → Val → Except Exc β) (bJ : Bool → Val → Except Exc β)
        (bC : ConfigCfg → List Val → CfgVal → Except Exc β), (q.withValue L bD bJ bC).2 = q') ∧
      q.withValue L aD aJ aC = ((match q with
        | .dflt cfg st => aD cfg st.keys v
        | .json s _ _ => aJ s v
        | .config _ _ => .error .recursion), q') ∧
      Kid L t q' v ∧ q'.Held v ∧ q'.keys = q.keys := by
  obtain ⟨h1, rfl, h3, h4⟩ := h
  have hn := isNONE_false h4
  cases q with
  | config _ _ => exact h1.elim
  | dflt cfg st =>
    have e1 : SPath.valueDflt L cfg st = ((PathSt.value (fun ks (_ : Unit) c k => (resolveDefault L cfg ks c k, ()))
      Val.isNONE () st).1, (PathSt.value (fun ks (_ : Unit) c k => (resolveDefault L cfg ks c k, ()))
      Val.isNONE () st).2.2) := rfl
    have h5 : (PathSt.value (fun ks (_ : Unit) c k => (resolveDefault L cfg ks c k, ())) Val.isNONE () st).1 = .ok v := by
      simp only [SPath.value, SPath.withValue, e1] at h3
      generalize (PathSt.value (fun ks (_ : Unit) c k => (resolveDefault L cfg ks c k, ())) Val.isNONE () st).1 = x at h3 ⊢
      cases x with
      | error e => cases h3
      | ok x => exact h3
    have h6 := PathSt.value_held h5 hn
    have h7 := PathSt.value_keys (fun ks (_ : Unit) c k => (resolveDefault L cfg ks c k, ())) Val.isNONE () st
    generalize hst : (PathSt.value (fun ks (_ : Unit) c k => (resolveDefault L cfg ks c k, ())) Val.isNONE () st).2.2
      = st' at h6 h7 e1
    refine ⟨.dflt cfg st', ?_, ?_, ⟨h1, rfl, ?_, h4⟩, h6, h7⟩
    · intro β bD bJ bC
      simp only [SPath.withValue, e1, h5]
    · simp only [SPath.withValue, e1, h5]
    · simp only [SPath.value, SPath.withValue, SPath.valueDflt, h6.value]
  | json s l st =>
    have e1 : SPath.valueJson st = ((PathSt.value (fun _ (_ : Unit) c k => (.ok (resolveJson c k), ()))
      Val.isNONE () st).1, (PathSt.value (fun _ (_ : Unit) c k => (.ok (resolveJson c k), ()))
      Val.isNONE () st).2.2) := rfl
    have h5 : (PathSt.value (fun _ (_ : Unit) c k => (.ok (resolveJson c k), ())) Val.isNONE () st).1 = .ok v := by
      simp only [SPath.value, SPath.withValue, e1] at h3
      generalize (PathSt.value (fun _ (_ : Unit) c k => (.ok (resolveJson c k), ())) Val.isNONE () st).1 = x at h3 ⊢
      cases x with
      | error e => cases h3
      | ok x => exact h3
    have h6 := PathSt.value_held h5 hn
    have h7 := PathSt.value_keys (fun _ (_ : Unit) c k => (.ok (resolveJson c k), ())) Val.isNONE () st
    generalize hst : (PathSt.value (fun _ (_ : Unit) c k => (.ok (resolveJson c k), ())) Val.isNONE () st).2.2
      = st' at h6 h7 e1
    refine ⟨.json s l st', ?_, ?_, ⟨h1, rfl, ?_, h4⟩, h6, h7⟩
    · intro β bD bJ bC
      simp only [SPath.withValue, e1, h5]
    · simp only [SPath.withValue, e1, h5]
    · simp only [SPath.value, SPath.withValue, SPath.valueJson, h6.value]

end Pilo
