import Verif.Api
import Verif.Demo

/-!
# C01–C05: the context discipline
-/

namespace Pilo
variable {P : Type} {I : PathOps P} (W : LawfulPath I) {L : Lib} {C : Classes}

/-! ## C01 -/

/-- What a caller can see of the context is as before: the stack, and the keys and `str()` of every
path object that existed. -/
structure Undisturbed (I : PathOps P) (s s' : St P) : Prop where
  stack : s'.stack = s.stack
  paths : ∀ (r : Nat) (p : P), s.paths[r]? = some p →
    ∃ q, s'.paths[r]? = some q ∧ I.keys q = I.keys p ∧ I.render q = I.render p

theorem Ext.undisturbed {s s' : St P} (hs : ∀ p ∈ s.paths, W.WF p) (h : Ext W s s') :
    Undisturbed I s s' where
  stack := h.stack
  paths := by
    intro r p hp
    obtain ⟨q, hq, hsame⟩ := h.paths r p hp
    refine ⟨q, hq, hsame.keys, ?_⟩
    rw [W.render_text hsame.wf, W.render_text (hs p (List.mem_of_getElem? hp)), hsame.keys, hsame.shape]

/-- C01. Whatever a call into the API does and however it ends, it leaves the context as it was. -/
theorem C01_context_restored {s : St P} (h : Reach I L C W.WF s) (n : Nat) (c : Call P)
    (hc : c.SrcIs W.WF) : Undisturbed I s (c.run I L C n s).2 :=
  ((c.keeps n hc).run s h.inv).undisturbed W h.inv.wf

/-- C01 for the built-in sources: default, JSON, config, union and mount. -/
theorem C01_builtin {s : St Path} (h : Reach (Path.ops L) L C (Path.AtRoot L) s) (n : Nat)
    (c : Call Path) (hc : c.SrcIs (Path.AtRoot L)) :
    Undisturbed (Path.ops L) s (c.run (Path.ops L) L C n s).2 := by
  refine C01_context_restored (Path.lawful L) (h.mono fun p hp => hp.wf) n c ?_
  unfold Call.SrcIs at hc ⊢
  split <;> first | exact Path.AtRoot.wf hc | trivial

/-- A state inside two nested blocks, with a live path `k`. -/
def Demo.inside : St Path :=
  (pushKey (Path.ops Demo.lib) (.str "k") { form := some 0 }
    (pushSource (.ok (.base (.simple (SPath.native Demo.doc none)))) {} St.init).2).2

theorem Demo.inside_reach : Reach (Path.ops Demo.lib) Demo.lib Demo.classes (Path.AtRoot Demo.lib)
    Demo.inside :=
  .key _ _ (.source _ (.base (.simple rfl)) _ .init)

/-- The context is not empty there and the call fails with an exception: mapping a form that does not
exist. -/
example : Undisturbed (Path.ops Demo.lib) Demo.inside
    ((Call.formMap 0 (.data Demo.doc) [] false (.str .ignore) true).run
      (Path.ops Demo.lib) Demo.lib Demo.classes 5 Demo.inside).2 :=
  C01_builtin Demo.inside_reach 5 _ trivial

example : Demo.inside.stack.length = 3 ∧
    Demo.inside.paths.map (Path.ops Demo.lib).keys = [[.str "k"]] := ⟨rfl, rfl⟩

/-! ## C05 -/

/-- Every error list of `s` is still there in `s'`, possibly with more entries at its end. -/
def Appended (s s' : St P) : Prop :=
  ∀ (e : Nat) (b : ErrBuf), s.errs[e]? = some b →
    ∃ b', s'.errs[e]? = some b' ∧ ∃ more, b'.items = b.items ++ more

theorem Ext.appended {s s' : St P} (h : Ext W s s') : Appended s s' := by
  intro e b hb
  obtain ⟨b', h1, _, more, h3⟩ := h.errs e b hb
  exact ⟨b', h1, more, h3.symm⟩

/-- C05. No call removes, reorders or changes errors already collected anywhere. -/
theorem C05_errors_append_only {s : St P} (h : Reach I L C W.WF s) (n : Nat) (c : Call P)
    (hc : c.SrcIs W.WF) : Appended s (c.run I L C n s).2 :=
  ((c.keeps n hc).run s h.inv).appended W

/-- The state after attempting the fields `fs` of a form (the loop of `Form._map`). -/
def afterFields (I : PathOps P) (L : Lib) (C : Classes) (n id : Nat) (tags : List String)
    (fs : List Field) (s : St P) : Except Exc Unit × St P :=
  mapFields (mapField I L C n) id tags fs s

theorem M.bind_assoc' {α β γ : Type} (m : M P α) (f : α → M P β) (g : β → M P γ) :
    ((m >>= f) >>= g) = (m >>= fun a => f a >>= g) := by
  funext s
  cases hm : m s with
  | mk r s' =>
    cases r with
    | ok a =>
      rw [M.bind_ok hm]
      cases h2 : f a s' with
      | mk r2 s2 =>
        cases r2 with
        | ok _ => rw [M.bind_ok h2, M.bind_ok (M.bind_ok hm |>.trans h2)]
        | error e => rw [M.bind_error h2, M.bind_error (M.bind_ok hm |>.trans h2)]
    | error e => rw [M.bind_error hm, M.bind_error (M.bind_error hm)]

theorem mapFields_append {rec : Rec P} (id : Nat) (tags : List String) (fs gs : List Field) :
    mapFields rec id tags (fs ++ gs) =
      (mapFields rec id tags fs >>= fun _ => mapFields rec id tags gs) := by
  induction fs with
  | nil => rfl
  | cons f fs ih => simp only [List.cons_append, mapFields, ih, M.bind_assoc']

/-- C05, at every point of the field loop: what is collected by the end of the mapping extends what had
been collected after the first fields. -/
theorem C05_between_fields {s : St P} (h : Reach I L C W.WF s) (n id : Nat) (tags : List String)
    (fs gs : List Field) :
    Appended (afterFields I L C n id tags fs s).2 (afterFields I L C n id tags (fs ++ gs) s).2 := by
  have hr : RecKeeps W (mapField I L C n) := Keeps.mapField n
  have h1 := (Keeps.mapFields hr id tags fs).run s h.inv
  have h2 := (Keeps.mapFields hr id tags gs).run _ (h1.inv h.inv)
  unfold afterFields
  rw [mapFields_append]
  cases hm : mapFields (mapField I L C n) id tags fs s with
  | mk r s' =>
    rw [hm] at h1 h2
    cases r with
    | ok a => rw [M.bind_ok hm]; exact h2.appended W
    | error e => rw [M.bind_error hm]; exact (Ext.refl h1.wf).appended W

/-! ## C02 -/

/-- Programs that nest `with ctx(...)` blocks, read context variables, raise and catch. -/
inductive Blk where
  /-- `return v` -/
  | ret (v : Val)
  /-- `raise e` -/
  | raise (e : Exc)
  /-- sequencing -/
  | bind (p : Blk) (k : Val → Blk)
  /-- `try: p except Exception as e: h(e)` -/
  | tryCatch (p : Blk) (h : Exc → Blk)
  /-- `ctx.x` -/
  | read (x : String)
  /-- `with ctx(**vars): p` -/
  | block (vars : List (String × Val)) (p : Blk)

/-- `frame[x]` for a user variable. -/
def Frame.var (x : String) (f : Frame) : Option Val := (f.vars.find? (fun p => p.1 == x)).map Prod.snd

/-- Run with the model's context. -/
def Blk.run (I : PathOps P) : Blk → M P Val
  | .ret v => M.pure v
  | .raise e => M.raise e
  | .bind p k => M.bind (p.run I) fun v => (k v).run I
  | .tryCatch p h => M.tryCatch (p.run I) fun e => (h e).run I
  | .read x => ctxGet (Frame.var x) x
  | .block vars p => withPush I (pushVars { vars := vars }) (p.run I)

/-- Specification: lexical scoping.  The environment is a function and is never updated. -/
def Blk.lex (env : String → Option Val) : Blk → Except Exc Val
  | .ret v => .ok v
  | .raise e => .error e
  | .bind p k => match p.lex env with
    | .ok v => (k v).lex env
    | .error e => .error e
  | .tryCatch p h => match p.lex env with
    | .ok v => .ok v
    | .error e => (h e).lex env
  | .read x => match env x with
    | some v => .ok v
    | none => .error (noCtxAttr x)
  | .block vars p =>
    p.lex fun x => match vars.find? (fun b => b.1 == x) with
      | some b => some b.2
      | none => env x

/-- C02. Context variables are lexically scoped: running any nesting of blocks gives the result of the
lexical semantics and leaves the state untouched, from any context. -/
theorem C02_lexical_scoping (I : PathOps P) (b : Blk) : ∀ s : St P,
    b.run I s = (b.lex (fun x => lookup (Frame.var x) s.stack), s) := by
  induction b with
  | ret v => intro s; rfl
  | raise e => intro s; rfl
  | bind p k ihp ihk =>
    intro s
    show M.bind _ _ s = _
    unfold M.bind
    rw [ihp s]
    simp only [Blk.lex]
    cases hp : p.lex (fun x => lookup (Frame.var x) s.stack) with
    | ok v => exact ihk v s
    | error e => rfl
  | tryCatch p h ihp ihh =>
    intro s
    show M.tryCatch _ _ s = _
    unfold M.tryCatch
    rw [ihp s]
    simp only [Blk.lex]
    cases hp : p.lex (fun x => lookup (Frame.var x) s.stack) with
    | ok v => rfl
    | error e => exact ihh e s
  | read x =>
    intro s
    simp only [Blk.run, Blk.lex, ctxGet]
    cases lookup (Frame.var x) s.stack <;> rfl
  | block vars p ih =>
    intro s
    have h1 : (pushVars { vars := vars } : M P Unit) s
        = (.ok (), { s with stack := { vars := vars } :: s.stack }) := rfl
    have h2 := ih { s with stack := { vars := vars } :: s.stack }
    show (pushVars { vars := vars } >>= fun _ => M.tryFinally (p.run I) (restore I)) s = _
    have h3 : restore I { s with stack := { vars := vars } :: s.stack } = (.ok (), s) := rfl
    rw [M.bind_ok h1, M.tryFinally_ok h2 h3]
    simp only [Blk.lex]
    congr 2
    funext x
    simp only [lookup, List.findSome?_cons, Frame.var]
    cases vars.find? (fun b => b.1 == x) <;> rfl

/-- Shadowing, an exception and the outer binding again. -/
example : (Blk.block [("v", .int 1)] (.bind
      (.tryCatch (.block [("v", .int 2)] (.bind (.read "v") fun _ => .raise (.valueError "x")))
        fun _ => .ret .none)
      fun _ => .read "v")).run (Path.ops Demo.lib) St.init = (.ok (.int 1), St.init) := by
  rw [C02_lexical_scoping]; rfl

/-! ## C03 -/

/-- The keys that frames (top first) have pushed on the path that was current below them: from the
bottom one up, until a frame that brings its own path. -/
def pushedBy (frames : List Frame) : List Val :=
  (frames.reverse.takeWhile fun f => match f.src with
    | .absent => true
    | .key _ => true
    | _ => false).filterMap fun f => match f.src with
    | .key k => some k
    | _ => none

theorem segKeys_pushedBy (frames : List Frame) : segKeys frames.reverse = pushedBy frames := by
  unfold pushedBy
  generalize frames.reverse = fs
  induction fs with
  | nil => rfl
  | cons f fs ih =>
    rw [segKeys, List.takeWhile_cons]
    cases h : f.src <;> simp [h, ih]

/-- C03 when the nearest matching frame is not the top one. Entering exposes exactly the stack from the
matching frame down, with the keys the hidden frames had pushed removed from its path and all other
paths as they were; after the block, whatever calls its body makes, the context is as before. -/
theorem C03_rewind_partial {s : St P} (h : Reach I L C W.WF s) (stop : Frame → Bool) {i : Nat}
    (hi : s.stack.findIdx? stop = some i) (h0 : i ≠ 0) :
    (∃ frames s1, rewind I stop s = (.ok frames, s1) ∧ s1.stack = s.stack.drop i ∧
      ∀ (r : Nat) (p : P), s.paths[r]? = some p → ∃ q, s1.paths[r]? = some q ∧
        I.keys p = I.keys q ++
          if curPath (s.stack.drop i) = some (some r) then pushedBy (s.stack.take i) else []) ∧
    ∀ (n : Nat) (c : Call P), c.SrcIs W.WF →
      Undisturbed I s (withRewind I stop (c.run I L C n) s).2 := by
  constructor
  · obtain ⟨s1, h1, h2, _, _, _, h6, _⟩ := rewind_spec h.inv hi h0
    refine ⟨_, s1, h1, h2, ?_⟩
    intro r p hp
    obtain ⟨q, hq, hk⟩ := h6 r p hp
    refine ⟨q, hq, ?_⟩
    rw [hk, segKeys_pushedBy]
  · intro n c hc
    refine (Ext.withRewind h.inv ?_ (c.keeps n hc)).undisturbed W h.inv.wf
    intro f rest hst
    cases hf : stop f with
    | false => rfl
    | true =>
      exfalso
      apply h0
      rw [hst] at hi
      simp [List.findIdx?_cons, hf] at hi
      exact hi.symm

/-- C03, no frame matches: `RewindDidNotStop`, nothing changes and the body does not run. -/
theorem C03_no_match {α : Type} (s : St P) (stop : Frame → Bool) (h : ∀ f ∈ s.stack, stop f = false)
    (body : M P α) : withRewind I stop body s = (.error .rewindDidNotStop, s) := by
  have : s.stack.findIdx? stop = none := by
    rw [List.findIdx?_eq_none_iff]; simpa using h
  refine M.bind_error ?_
  unfold rewind
  rw [this]

/-- C03 fails when the nearest matching frame is the top one: `self.stack[-0:]` is the whole stack, so
the context is left without any frame (not even the root frame), for good. -/
theorem C03_counterexample {α : Type} (s : St P) (stop : Frame → Bool) (f : Frame) (rest : List Frame)
    (hst : s.stack = f :: rest) (hf : stop f = true) (body : M P α) :
    (withRewind I stop body s).1 = .error (noCtxAttr "src_path") ∧
      (withRewind I stop body s).2.stack = [] := by
  have hi : s.stack.findIdx? stop = some 0 := by rw [hst]; simp [List.findIdx?_cons, hf]
  have hrw : rewind I stop s = (.error (noCtxAttr "src_path"), { s with stack := [] }) := by
    unfold rewind
    rw [hi]
    refine M.bind_error ?_
    unfold whenSrcPath
    refine M.bind_error ?_
    rfl
  have : withRewind I stop body s = (.error (noCtxAttr "src_path"), { s with stack := [] }) :=
    M.bind_error hrw
  rw [this]
  exact ⟨rfl, rfl⟩

/-- Rewinding over a pushed key: the hypotheses of `C03_rewind_partial` hold in `Demo.inside`, the
body sees two frames and a path without the key. -/
example : Demo.inside.stack.findIdx? (fun f => f.form.isNone) = some 1 := rfl
example : ((rewind (Path.ops Demo.lib) (fun f => f.form.isNone) Demo.inside).2.paths.map
    (Path.ops Demo.lib).keys) = [[]] := rfl
/-- Rewinding to the top frame in a fresh thread destroys the root frame. -/
example : (withRewind (Path.ops Demo.lib) (fun _ => true) (M.pure ()) St.init).2.stack = [] :=
  (C03_counterexample St.init _ rootFrame [] rfl rfl _).2

/-! ## C04 -/

/-- `Context` is a `threading.local` (`pilo/context.py:76,98`): each thread has its own state, made by
`Context.__init__` on first use. -/
abbrev Threads (P : Type) := Nat → Option (St P)

/-- The state thread `t` sees. -/
def Threads.view (ts : Threads P) (t : Nat) : St P := (ts t).getD St.init

/-- Thread `t` runs an operation. -/
def Threads.step {α : Type} (ts : Threads P) (t : Nat) (m : M P α) : Threads P :=
  fun u => if u = t then some (m (ts.view t)).2 else ts u

/-- An interleaving of operations of several threads. -/
def Threads.exec {α : Type} (ts : Threads P) : List (Nat × M P α) → Threads P
  | [] => ts
  | (t, m) :: rest => Threads.exec (ts.step t m) rest

/-- Run operations one after the other in a single state. -/
def runAll {α : Type} (s : St P) : List (M P α) → St P
  | [] => s
  | m :: ms => runAll (m s).2 ms

/-- C04. After any interleaving, the context a thread sees is what its own operations make of a fresh
context, whatever the others did. -/
theorem C04_thread_independent {α : Type} (ops : List (Nat × M P α)) (t : Nat) :
    (Threads.exec (fun _ => none) ops).view t
      = runAll St.init ((ops.filter fun o => o.1 == t).map Prod.snd) := by
  suffices h : ∀ ts : Threads P, (ts.exec ops).view t
      = runAll (ts.view t) ((ops.filter fun o => o.1 == t).map Prod.snd) from h _
  induction ops with
  | nil => intro ts; rfl
  | cons o ops ih =>
    intro ts
    obtain ⟨u, m⟩ := o
    rw [Threads.exec, ih]
    by_cases hu : u = t
    · subst hu
      simp [Threads.step, Threads.view, runAll]
    · have : t ≠ u := fun h => hu h.symm
      simp [hu, Threads.step, Threads.view, this]

/-- Two threads pushing in turns: thread 1 sees only its own frame. -/
example : ((Threads.exec (fun _ => none)
    [(0, pushVars { vars := [("a", .int 0)] }), (1, pushVars { vars := [("a", .int 1)] }),
     (0, pushVars { vars := [("b", .int 2)] })]).view 1 : St Path).stack
    = [{ vars := [("a", .int 1)] }, rootFrame] := rfl

end Pilo
