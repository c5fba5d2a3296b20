import Verif.Moments
import Verif.Props.Dates

/-!
# C81: a field reads what it writes
-/

namespace Pilo
variable {P : Type} {I : PathOps P} {L : Lib} {W : LawfulPath I} {C : Classes} {rec : Rec P}
  {f : Field} {s : St P} {r : Nat} {q : P} {text : String} {b : ErrBuf}

/-- The type of the moments a field of the kind makes of texts. -/
def Kind.moment? : Kind → Option ExtTy
  | .date _ => some .date
  | .time _ => some .structTime
  | .datetime _ => some .datetime
  | _ => none

/-- `strptime` for moments of a type, with a format. -/
def Lib.strptime (L : Lib) : ExtTy → String → String → Option Int
  | .date => L.strptimeDate
  | .datetime => L.strptimeDatetime
  | .structTime => L.strptimeTime
  | _ => fun _ _ => none

/-- The format tells `d`: reading what was written gives it back. -/
def Tells (K : Clock) (L : Lib) (t : ExtTy) (spec : String) (d : Int) : Prop :=
  ∀ x, K.strftime t d spec = .ok x → L.strptime t spec x = some d

theorem Kind.format_reads {K : Clock} {k : Kind} {c : DateCfg} {t : ExtTy} {d : Int} {x spec : String} {more : List String}
    (hk : k.window? = some c) (ht : k.moment? = some t) (hc : c.format = spec :: more) (hone : t ≠ .date → more = [])
    (hiso : spec ≠ "iso8601") (htell : Tells K L t spec d) (h : k.format K (.ext t d) = some (.ok (.text x))) :
    Reads L k (.str x) t d := by
  have key : ∀ {t}, K.write t d c.format = .ok (.text x) → K.strftime t d spec = .ok x := by
    intro t h
    rw [hc] at h
    unfold Clock.write at h
    dsimp only at h
    cases e : K.strftime t d spec with
    | ok y => rw [e] at h; cases h; rfl
    | error e' => rw [e] at h; cases h
  cases k <;> simp only [Kind.window?, Option.some.injEq, reduceCtorEq] at hk <;> subst hk <;> cases ht
  · injection h with h
    have := htell x (key h)
    refine .dateStr (pre := []) (post := more) (spec := spec) hc (by intro _ h; cases h) ?_
    unfold dateOf
    rw [if_neg hiso]
    exact this
  · injection h with h
    have := htell x (key h)
    rw [hone (by decide)] at hc
    exact .timeStr hc this
  · injection h with h
    have := htell x (key h)
    rw [hone (by decide)] at hc
    refine .datetimeStr hc ?_
    unfold datetimeOf
    rw [if_neg hiso]
    exact this

/-- C81 (partial: the format used is not `'iso8601'`, for which the code writes that word; and the moment is of the type the field
reads texts as, which a `datetime.time` is not).  Let a `Date`, `Time` or `Datetime` field without hooks, translations and ignored values write the
moment `d` as `x`, where the format tells `d` and `d` lies between the bounds.  Mapped where the source has the text `x`, the field
gives `d` again, without errors.  A `Date` field may have further formats. -/
theorem C81_roundtrip_partial {K : Clock} {c : DateCfg} {t : ExtTy} {d : Int} {x spec : String} {more : List String}
    (sp : Spot I W f s r q text b) (hf : HookFree f) (hk : f.kind.window? = some c) (ht : f.kind.moment? = some t)
    (hc : c.format = spec :: more) (hone : t ≠ .date → more = []) (hiso : spec ≠ "iso8601") (htell : Tells K L t spec d)
    (h : f.kind.format K (.ext t d) = some (.ok (.text x)))
    (ha : f.core.attachParent = false) (htr : f.core.translations = []) (hi : (Val.ext t d).inList f.core.ignores = false)
    (hb : WindowOf c t) (hin : InWindow c t d) (hx : Holds I q (.str x)) :
    Accepts (mapFieldF I L C rec f .NONE) s (.ext t d) :=
  (C54_window_partial sp hf hk ha htr hi hx (Kind.format_reads hk ht hc hone hiso htell h) hb).1 hin

/-- Formats without directives are written as they are. -/
def Clock.Literal (K : Clock) : Prop := ∀ t d, K.strftime t d "iso8601" = .ok "iso8601"

/-- C81 is false of every `Datetime` field with the format `'iso8601'`: every moment is written as that word, and the field rejects
it. -/
theorem C81_iso_datetime {K : Clock} (hK : K.Literal) {c : DateCfg} (sp : Spot I W f s r q text b) (hf : HookFree f)
    (hk : f.kind = .datetime c) (hc : c.format = ["iso8601"]) (hiso : L.iso8601 "iso8601" = none) (ha : f.core.attachParent = false)
    (d : Int) : f.kind.format K (.ext .datetime d) = some (.ok (.text "iso8601")) ∧
      (HoldsStr I q "iso8601" → Rejects (mapFieldF I L C rec f .NONE) s f text r) := by
  refine ⟨?_, fun hx => C47_datetime sp hf hk ha hx fun spec hs => ?_⟩
  · rw [hk]
    unfold Kind.format
    dsimp only
    rw [hc]
    unfold Clock.write
    dsimp only
    rw [hK]
  · rw [hc] at hs
    cases hs
    unfold datetimeOf
    rw [if_pos rfl]
    exact hiso

/-- C81 is false of `Date` fields with the format `'iso8601'`, too. -/
theorem C81_iso_date {K : Clock} (hK : K.Literal) {c : DateCfg} {more : List String} (hc : c.format = "iso8601" :: more) (d : Int) :
    (Kind.date c).format K (.ext .date d) = some (.ok (.text "iso8601")) := by
  unfold Kind.format
  dsimp only
  rw [hc]
  unfold Clock.write
  dsimp only
  rw [hK]

/-- C81 is false of every `Time` field for a `datetime.time`, which the field takes as a value: it is not written but becomes the
format. -/
theorem C81_time (K : Clock) (c : DateCfg) (d : Int) : (Kind.time c).format K (.ext .time d) = some (.ok (.sets (.ext .time d))) := rfl

section
open Demo

/-- A clock that knows one year. -/
def yearClock : Clock where
  strftime _ d spec := if spec = "%Y" then .ok (if d = 6 then "1970" else "1971") else .ok spec

theorem yearClock_literal : yearClock.Literal := fun _ _ => rfl

def yearField : Field := field "a" (.date { before := some (.ext .date 6), format := ["%Y", "%m"] })

example (rec : Rec SPath) : Accepts (mapFieldF (SPath.ops yearLib) yearLib classes rec yearField .NONE)
    (here (SPath.ops yearLib) (.dict [(.str "a", .str "1970")])) (.ext .date 6) :=
  C81_roundtrip_partial (K := yearClock) (spec := "%Y") (more := ["%m"]) (x := "1970") (here_spot yearLib _ _ rfl (by intro _ h; cases h))
    (free _ _ (by intro _ _ _ _ _ h; cases h)) rfl rfl rfl (fun h => absurd rfl h) (by decide)
    (fun x h => by
      have : x = "1970" := by injection h with h; exact h.symm
      subst this; decide +kernel) (by rfl) rfl rfl rfl
    ⟨(by intro _ h; cases h), (by rintro _ ⟨⟩; exact ⟨_, rfl⟩)⟩ ⟨(by intro n h; cases h), (by rintro n ⟨⟩; decide)⟩
    (holds_dflt (v := .str "1970") rfl rfl (by decide +kernel))

example : (field "a" (.datetime { format := ["iso8601"] })).kind.format yearClock (.ext .datetime 6) = some (.ok (.text "iso8601")) ∧
    Rejects (mapFieldF (SPath.ops lib) lib classes (fun _ _ => M.pure .none) (field "a" (.datetime { format := ["iso8601"] })) .NONE)
      (here (SPath.ops lib) (.dict [(.str "a", .str "iso8601")])) (field "a" (.datetime { format := ["iso8601"] })) "a" 0 := by
  obtain ⟨h1, h2⟩ := C81_iso_datetime (L := lib) (C := classes) (rec := fun _ _ => M.pure .none) yearClock_literal
    (here_spot lib (field "a" (.datetime { format := ["iso8601"] })) (.dict [(.str "a", .str "iso8601")]) rfl (by intro _ h; cases h))
    (free _ _ (by intro _ _ _ _ _ h; cases h)) rfl rfl rfl rfl 6
  exact ⟨h1, h2 (holdsStr_dflt (by decide +kernel))⟩

end

end Pilo
