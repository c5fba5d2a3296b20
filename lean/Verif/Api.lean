import Verif.Keeps
import Verif.Source.Lawful

/-!
# Calls into the API, and the context states they can be made in
-/

namespace Pilo

/-- A call a program can make.  `prog` is any code using `pilo` that a hook body could contain. -/
inductive Call (P : Type) where
  /-- `field.map(value)` -/
  | fieldMap (f : Field) (v : Val)
  /-- `form.map(src, tags, reset, unmapped, error)` -/
  | formMap (id : Nat) (src : SrcArg P) (tags : List String) (reset : Bool) (u : Unmapped)
      (raising : Bool)
  /-- `form.name` -/
  | getattr (id : Nat) (name : String)
  /-- `cls(src)` -/
  | construct (cls : Nat) (src : SrcArg P)
  /-- user code -/
  | prog (p : Prog)

section
variable {P : Type} (I : PathOps P) (L : Lib) (C : Classes)

/-- Run a call with recursion budget `n`. -/
def Call.run (n : Nat) : Call P → M P Val
  | .fieldMap f v => mapField I L C n f v
  | .formMap id src tags reset u raising => do
    let e ← Form.map I L C n id src tags reset u raising
    M.pure (.int e)
  | .getattr id name => Form.getattr I L C n id name
  | .construct cls src => do
    let id ← Form.init I L C n cls src
    M.pure (.form id)
  | .prog p => evalProg I L C (mapField I L C n) p

variable {I}

/-- The source argument, if any, is a path satisfying `ok`. -/
def Call.SrcIs (ok : P → Prop) : Call P → Prop
  | .formMap _ (.source (.ok p)) _ _ _ _ => ok p
  | .construct _ (.source (.ok p)) => ok p
  | _ => True

variable (I)

/-- States of a thread that can arise: from a fresh thread, by API calls and by entering and leaving
`with ctx(...)`, `with ctx.reset()` and `with ctx.rewind(...)` blocks.  `ok` says which source paths
the program uses. -/
inductive Reach (ok : P → Prop) : St P → Prop where
  | init : Reach ok St.init
  | call {s : St P} (n : Nat) (c : Call P) (hc : c.SrcIs ok) (h : Reach ok s) :
      Reach ok (c.run I L C n s).2
  | vars {s : St P} (f : Frame) (h : Reach ok s) : Reach ok (pushVars f s).2
  | reset {s : St P} (h : Reach ok s) : Reach ok (pushReset s).2
  | key {s : St P} (k : Val) (f : Frame) (h : Reach ok s) : Reach ok (pushKey I k f s).2
  | source {s : St P} (p : P) (hp : ok p) (f : Frame) (h : Reach ok s) :
      Reach ok (pushSource (.ok p) f s).2
  | errors {s : St P} (raising : Bool) (h : Reach ok s) : Reach ok (newErrs raising s).2
  | leave {s : St P} (hl : 1 < s.stack.length) (h : Reach ok s) : Reach ok (restore I s).2
  | rewind {s : St P} (stop : Frame → Bool) (hs : ∀ f rest, s.stack = f :: rest → stop f = false)
      (h : Reach ok s) : Reach ok (Pilo.rewind I stop s).2

end

section
variable {P : Type} {I : PathOps P} {W : LawfulPath I} {L : Lib} {C : Classes}

theorem Call.keeps (n : Nat) (c : Call P) (hc : c.SrcIs W.WF) : Keeps W (c.run I L C n) := by
  have hr : RecKeeps W (mapField I L C n) := Keeps.mapField n
  have hmap : ∀ (id : Nat) (src : SrcArg P) tags reset u raising, SrcOK W src →
      Keeps W (Form.map I L C n id src tags reset u raising) := by
    intro id src tags reset u raising h
    exact Keeps.formMap hr id h tags reset u raising
  cases c with
  | fieldMap f v => exact hr f v
  | formMap id src tags reset u raising =>
    refine Keeps.bind (hmap id src tags reset u raising ?_) fun _ => Keeps.pure _
    cases src with
    | source mk => cases mk with
      | ok p => exact hc
      | error e => trivial
    | _ => trivial
  | getattr id name => exact Keeps.formGetattr hr id name
  | construct cls src =>
    refine Keeps.bind ?_ fun _ => Keeps.pure _
    unfold Form.init
    refine Keeps.bind (Keeps.newForm _) fun id => ?_
    have hfin : ∀ e : Nat, Keeps W (do
        let es ← errItems e
        if es.isEmpty then M.pure id else M.raise (.formError es) : M P Nat) := by
      intro e; keeps
    cases src with
    | none => exact Keeps.pure _
    | source mk =>
      refine Keeps.bind (hmap _ _ _ _ _ _ ?_) hfin
      cases mk with
      | ok p => exact hc
      | error e => trivial
    | data v =>
      refine Keeps.bind (hmap _ _ _ _ _ _ ?_) hfin
      unfold initSrc
      split <;> first | exact W.native_wf | trivial
  | prog p => exact Keeps.evalProg hr p

/-- Leaving a block: the top frame goes and what it pushed on the path goes with it. -/
theorem Inv.restore {s : St P} (hs : Inv W s) (hl : 1 < s.stack.length) :
    (restore I s).1 = .ok () ∧ Inv W (restore I s).2 := by
  cases hst : s.stack with
  | nil => rw [hst] at hl; simp at hl
  | cons f rest =>
    have hrne : rest ≠ [] := by
      intro h; rw [hst, h] at hl; simp at hl
    have hroot : ∃ g, rest.getLast? = some g ∧ g.src = .cleared := by
      obtain ⟨g, hg, hgs⟩ := hs.root
      refine ⟨g, ?_, hgs⟩
      rw [hst] at hg
      cases rest with
      | nil => exact absurd rfl hrne
      | cons x xs => simpa using hg
    have hseg := hs.seg
    have hnd := hs.nodup
    rw [hst] at hseg hnd
    unfold SegOK at hseg
    unfold srcRefs at hnd
    unfold Pilo.restore
    rw [hst]
    cases hf : f.src with
    | absent =>
      simp only [hf] at hseg hnd ⊢
      exact ⟨trivial, hs.wf, hseg, hnd, hroot⟩
    | cleared =>
      simp only [hf] at hseg hnd ⊢
      exact ⟨trivial, hs.wf, hseg.2, hnd, hroot⟩
    | source r =>
      simp only [hf] at hseg hnd ⊢
      exact ⟨trivial, hs.wf, hseg.2, (List.nodup_cons.1 hnd).2, hroot⟩
    | key k =>
      simp only [hf] at hseg hnd ⊢
      obtain ⟨c, hc⟩ := curPath_of_root hroot
      cases c with
      | none => have := SegOK.cur_none hseg hc; simp at this
      | some r =>
        obtain ⟨p, mid, hp, base, hb⟩ := SegOK.cur hseg hc
        have hwp := hs.wf p (List.mem_of_getElem? hp)
        obtain ⟨q, hq, hk, hw, _⟩ := W.pop_keys (ks := base ++ mid) (k := k) hwp (by rw [← hb]; simp)
        have hrun : onPath (pathPop I) { s with stack := rest }
            = (.ok (), { s with stack := rest, paths := s.paths.set r q }) := by
          rw [onPath_ok (s := { s with stack := rest }) (r := r) (p := p) hc hp]
          simp [pathPop, hq]
        simp only [hrun]
        refine ⟨trivial, ?_, ?_, hnd, hroot⟩
        · intro p' hp'
          rcases List.mem_or_eq_of_mem_set hp' with h1 | h1
          · exact hs.wf p' h1
          · rw [h1]; exact hw
        · exact SegOK.pop (acc := []) (ks := [k]) hp (by rw [hk, ← hb]; simp) hnd hc hseg

/-- A push that succeeds leads to a well formed context, one that fails leaves one. -/
theorem PushOK.inv {push : M P Unit} (hp : PushOK W push) {s : St P} (hs : Inv W s) :
    Inv W (push s).2 := by
  have h := hp s hs
  cases hr : push s with
  | mk r s1 =>
    rw [hr] at h
    cases r with
    | ok _ => exact h.1
    | error e => exact Ext.inv h hs

theorem Inv.init : Inv W (St.init : St P) where
  wf := by intro p hp; cases hp
  seg := by simp [St.init, SegOK, rootFrame]
  nodup := by simp [St.init, srcRefs, rootFrame]
  root := ⟨rootFrame, rfl, rfl⟩

/-- Every reachable context is well formed. -/
theorem Reach.inv {s : St P} (h : Reach I L C W.WF s) : Inv W s := by
  induction h with
  | init => exact Inv.init
  | call n c hc _ ih => exact ((c.keeps n hc).run _ ih).inv ih
  | vars f _ ih => exact (PushOK.vars f).inv ih
  | reset _ ih => exact PushOK.reset.inv ih
  | key k f _ ih => exact (PushOK.key k f).inv ih
  | source p hp f _ ih => exact (PushOK.source (by intro q hq; cases hq; exact hp)).inv ih
  | errors r _ ih => exact ((Keeps.newErrs r).run _ ih).inv ih
  | leave hl _ ih => exact (Inv.restore ih hl).2
  | @rewind s stop hs _ ih =>
    cases hi : s.stack.findIdx? stop with
    | none =>
      have : Pilo.rewind I stop s = (.error .rewindDidNotStop, s) := by unfold Pilo.rewind; rw [hi]
      rw [this]; exact ih
    | some i =>
      have hi0 : i ≠ 0 := by
        intro h
        subst h
        obtain ⟨hl, ht, _⟩ := List.findIdx?_eq_some_iff_getElem.1 hi
        cases hst : s.stack with
        | nil => rw [hst] at hl; simp at hl
        | cons f rest => simp [hst, hs f rest hst] at ht
      obtain ⟨s1, h1, _, hinv, _⟩ := rewind_spec ih hi hi0
      rw [h1]; exact hinv

end

/-! ## Paths of the built-in sources -/

/-- `source.path()` of a default, JSON or config source: no keys yet. -/
def SPath.AtRoot : SPath → Prop
  | .dflt _ st => st.parts = []
  | .json _ _ st => st.parts = []
  | .config _ st => st.parts = []

/-- `source.path()` of a mountable source. -/
inductive BPath.AtRoot (L : Lib) : BPath → Prop where
  | simple {p : SPath} (h : p.AtRoot) : AtRoot L (.simple p)
  | union {cfg : UnionCfg} {kids : List SPath} {q : UPath} (hk : ∀ c ∈ kids, c.AtRoot)
      (h : UPath.mk' L cfg kids = .ok q) : AtRoot L (.union q)

/-- `source.path()` of any built-in source. -/
inductive Path.AtRoot (L : Lib) : Path → Prop where
  | base {p : BPath} (h : p.AtRoot L) : AtRoot L (.base p)
  | mount {paths : List (String × BPath)} {q : MPath} (hk : ∀ x ∈ paths, x.2.AtRoot L)
      (h : MPath.mk' L paths = .ok q) : AtRoot L (.mount q)

theorem SPath.AtRoot.keys {p : SPath} (h : p.AtRoot) : p.keys = [] := by
  cases p <;> simp only [AtRoot] at h <;> simp [SPath.keys, PathSt.keys, h]

theorem SPath.AtRoot.tidy {p : SPath} (h : p.AtRoot) : p.Tidy := by
  cases p <;> simp only [AtRoot] at h <;> (intro q hq; rw [h] at hq; cases hq)

theorem BPath.AtRoot.wf {L : Lib} {p : BPath} (h : p.AtRoot L) : p.WF ∧ p.keys = [] := by
  cases h with
  | simple h => exact ⟨h.tidy, h.keys⟩
  | union hk h =>
    exact UPath.mk'_wf L (by intro c hc; simp [(hk c hc).keys]) h

theorem Path.AtRoot.wf {L : Lib} {p : Path} (h : p.AtRoot L) : p.WF := by
  cases h with
  | base h => exact h.wf.1
  | mount hk h => exact (MPath.mk'_wf (fun x hx => (hk x hx).wf) h).1

/-- `Call.SrcIs` and `Reach` are monotone in the set of usable source paths. -/
theorem Reach.mono {P : Type} {I : PathOps P} {L : Lib} {C : Classes} {ok ok' : P → Prop}
    (hm : ∀ p, ok p → ok' p) {s : St P} (h : Reach I L C ok s) : Reach I L C ok' s := by
  induction h with
  | init => exact .init
  | call n c hc _ ih =>
    refine .call n c ?_ ih
    unfold Call.SrcIs at hc ⊢
    split <;> first | exact hm _ hc | trivial
  | vars f _ ih => exact .vars f ih
  | reset _ ih => exact .reset ih
  | key k f _ ih => exact .key k f ih
  | source p hp f _ ih => exact .source p (hm p hp) f ih
  | errors r _ ih => exact .errors r ih
  | leave hl _ ih => exact .leave hl ih
  | rewind stop hs _ ih => exact .rewind stop hs ih

end Pilo
