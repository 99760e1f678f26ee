import Verif.Spec.Log
import Verif.Lemmas.Hex
import Verif.Props.Instances

/-!
# C116: secrets in the log of the scheduler; C117: who writes a message of the log
-/

namespace EG

/-! ### C116 -/

theorem readAfter_infix (mark pre post : List Char) (n : Nat) :
    n ∈ readAfter mark (pre ++ (mark ++ (toHex n ++ '\'' :: post))) := by
  unfold readAfter
  rw [List.mem_filterMap]
  refine ⟨mark ++ (toHex n ++ '\'' :: post), (List.mem_tails _ _).2 (List.suffix_append ..), ?_⟩
  rw [if_pos (List.prefix_append ..), List.drop_left]
  have : (toHex n ++ '\'' :: post).takeWhile (fun c => decide (c ≠ '\'')) = toHex n := by
    rw [List.takeWhile_append_of_pos]
    · simp
    · intro c hc
      have := toHex_chars n c hc
      rw [decide_eq_true_eq]
      rintro rfl
      obtain ⟨d, hd, he⟩ := this
      revert he
      revert hd
      revert d
      decide
  rw [this, hexToInt_toHex]
  rfl

/-- A scheduler with running pools logs nothing if every task returns. -/
theorem C116_silent_partial {α β : Type} (s : Proc) (r : Nat) (task : α → R β) (taskText : List Char) (repr : α → List Char)
    (closed : List Char) (failed : Err → List Char) (arguments : List α) (h : s.OpenScheduler r)
    (ht : ∀ a ∈ arguments, ∃ b, task a = .ok b) :
    s.scheduleLog r task taskText repr closed failed arguments = [] := by
  obtain ⟨o, k, p, h1, h2, h3, h4, h5⟩ := h
  have hm : ∃ rs, arguments.mapM task = .ok rs := by
    induction arguments with
    | nil => exact ⟨[], rfl⟩
    | cons a as ih =>
      obtain ⟨b, hb⟩ := ht a (List.mem_cons_self ..)
      obtain ⟨bs, hbs⟩ := ih (fun x hx => ht x (List.mem_cons_of_mem _ hx))
      exact ⟨b :: bs, by rw [List.mapM_cons, hb, hbs]; rfl⟩
  obtain ⟨rs, hm⟩ := hm
  simp only [Proc.scheduleLog, h1, h2, h3, h4, h5, if_true, hm]

/-- Otherwise it writes one warning, with the texts of all arguments: if the pools are closed, or if a task raises. -/
theorem C116_warns {α β : Type} (s : Proc) (r : Nat) (task : α → R β) (taskText : List Char) (repr : α → List Char)
    (closed : List Char) (failed : Err → List Char) (arguments : List α)
    (h : s.ClosedScheduler r ∨ s.OpenScheduler r ∧ ∃ a ∈ arguments, ∃ e, task a = .error e) :
    ∃ err, s.scheduleLog r task taskText repr closed failed arguments
      = [(30, starmapText taskText (reprList (arguments.map repr)) err)] := by
  rcases h with ⟨o, k, p, h1, h2, h3, h4, h5⟩ | ⟨⟨o, k, p, h1, h2, h3, h4, h5⟩, ht⟩
  · refine ⟨closed, ?_⟩
    simp only [Proc.scheduleLog, h1, h2, h3, h4, h5]
    rfl
  · have hm : ∃ e, arguments.mapM task = .error e := by
      induction arguments with
      | nil => obtain ⟨a, ha, -⟩ := ht; cases ha
      | cons a as ih =>
        rw [List.mapM_cons]
        cases ha : task a with
        | error e => exact ⟨e, rfl⟩
        | ok b =>
          obtain ⟨x, hx, e, he⟩ := ht
          rcases List.mem_cons.1 hx with rfl | hx
          · rw [ha] at he; cases he
          · obtain ⟨e', he'⟩ := ih ⟨x, hx, e, he⟩
            exact ⟨e', by rw [he']; rfl⟩
    obtain ⟨e, hm⟩ := hm
    refine ⟨failed e, ?_⟩
    simp only [Proc.scheduleLog, h1, h2, h3, h4, h5, if_true, hm]

theorem commaJoin_mem (items : List (List Char)) (x : List Char) (h : x ∈ items) :
    ∃ pre post, commaJoin items = pre ++ (x ++ post) := by
  induction items with
  | nil => cases h
  | cons y ys ih =>
    rcases List.mem_cons.1 h with rfl | h
    · cases ys with
      | nil => exact ⟨[], [], by simp [commaJoin]⟩
      | cons z zs => exact ⟨[], ", ".toList ++ commaJoin (z :: zs), by simp [commaJoin]⟩
    · obtain ⟨pre, post, hp⟩ := ih h
      cases ys with
      | nil => cases h
      | cons z zs =>
        refine ⟨y ++ ", ".toList ++ pre, post, ?_⟩
        rw [commaJoin, hp]
        · simp
        · simp

theorem wrap_starmap {j pre x post : List Char} (hp : j = pre ++ (x ++ post)) (a b c d e f g : List Char) :
    a ++ b ++ c ++ (d ++ j ++ e) ++ f ++ g = (a ++ b ++ c ++ d ++ pre) ++ (x ++ (post ++ e ++ f ++ g)) := by
  subst hp
  simp only [List.append_assoc]

theorem starmapText_mem (task err : List Char) (items : List (List Char)) (x : List Char) (h : x ∈ items) :
    ∃ pre post, starmapText task (reprList items) err = pre ++ (x ++ post) := by
  obtain ⟨pre, post, hp⟩ := commaJoin_mem items x h
  unfold starmapText reprList
  exact ⟨_, _, wrap_starmap hp _ _ _ _ _ _ _⟩

theorem wrap_secret (t o1 a o2 b o3 c c' q n r d e f g h i o4 j : List Char) :
    t ++ (o1 ++ a ++ o2 ++ b ++ o3 ++ (c ++ c' ++ (q ++ n ++ q) ++ r ++ d ++ e) ++ f ++ g ++ h ++ i ++ o4) ++ j
      = (t ++ o1 ++ a ++ o2 ++ b ++ o3 ++ c) ++ (c' ++ q ++ (n ++ (q ++ (r ++ d ++ e ++ f ++ g ++ h ++ i ++ o4 ++ j)))) := by
  simp only [List.append_assoc]

theorem secret_in_args {σ : Type} (other : String ⊕ Int ⊕ Polynomial' → List Char) (selection : σ → List Char)
    (context : List Char) (k : ElectionKeyPair) (x : σ) : ∃ pre post,
    reprShareArgs other selection context k x
      = pre ++ ("secret_key='".toList ++ (toHex k.keyPair.secret ++ '\'' :: post)) := by
  have e1 : "ElGamalKeyPair(secret_key=".toList = "ElGamalKeyPair(".toList ++ "secret_key=".toList := by decide
  have e2 : "secret_key='".toList = "secret_key=".toList ++ "'".toList := by decide
  have e3 : ∀ l : List Char, '\'' :: l = "'".toList ++ l := fun l => rfl
  simp only [e2, e3]
  unfold reprShareArgs reprTuple
  rw [commaJoin]
  · unfold reprElectionKeyPair reprKeyPair
    rw [e1, reprElem]
    exact ⟨_, _, wrap_secret _ _ _ _ _ _ _ _ _ _ _ _ _ _ _ _ _ _ _⟩
  · simp

/-- The secret key of a guardian is in the log whenever the shares of a contest with some selection are asked from a
scheduler that is closed or for which a task raises: whoever reads the log finds the key. -/
theorem C116_secret_key_fails {σ β : Type} (s : Proc) (r : Nat) (task : σ → R β) (taskText : List Char)
    (other : String ⊕ Int ⊕ Polynomial' → List Char) (selection : σ → List Char) (context closed : List Char)
    (failed : Err → List Char) (k : ElectionKeyPair) (selections : List σ) (hne : selections ≠ [])
    (h : s.ClosedScheduler r ∨ s.OpenScheduler r ∧ ∃ a ∈ selections, ∃ e, task a = .error e) :
    ∃ text, (30, text) ∈ s.scheduleLog r task taskText (reprShareArgs other selection context k) closed failed selections ∧
      k.keyPair.secret ∈ readAfter "secret_key='".toList text := by
  obtain ⟨err, hl⟩ := C116_warns s r task taskText (reprShareArgs other selection context k) closed failed selections h
  obtain ⟨x, hx⟩ := List.exists_mem_of_ne_nil _ hne
  refine ⟨_, by rw [hl]; exact List.mem_singleton.2 rfl, ?_⟩
  obtain ⟨pre, post, hp⟩ := starmapText_mem taskText err _ _ (List.mem_map_of_mem (f := reprShareArgs other selection context k) hx)
  obtain ⟨pre', post', hp'⟩ := secret_in_args other selection context k x
  rw [hp, hp']
  have := readAfter_infix "secret_key='".toList (pre ++ pre') (post' ++ post) k.keyPair.secret
  simpa only [List.append_assoc, List.cons_append] using this

/-- The coordinate of a missing guardian likewise. -/
theorem C116_coordinate_fails {σ β : Type} (s : Proc) (r : Nat) (task : σ → R β) (taskText : List Char)
    (present missing : List Char) (selection : σ → List Char) (context closed : List Char)
    (failed : Err → List Char) (coordinate : Nat) (selections : List σ) (hne : selections ≠ [])
    (h : s.ClosedScheduler r ∨ s.OpenScheduler r ∧ ∃ a ∈ selections, ∃ e, task a = .error e) :
    ∃ text, (30, text) ∈ s.scheduleLog r task taskText
        (reprCompensatedArgs present missing selection context coordinate) closed failed selections ∧
      coordinate ∈ readAfter "('".toList text := by
  obtain ⟨err, hl⟩ := C116_warns s r task taskText (reprCompensatedArgs present missing selection context coordinate) closed
    failed selections h
  obtain ⟨x, hx⟩ := List.exists_mem_of_ne_nil _ hne
  refine ⟨_, by rw [hl]; exact List.mem_singleton.2 rfl, ?_⟩
  obtain ⟨pre, post, hp⟩ := starmapText_mem taskText err _ _
    (List.mem_map_of_mem (f := reprCompensatedArgs present missing selection context coordinate) hx)
  have hp' : reprCompensatedArgs present missing selection context coordinate x
      = "('".toList ++ (toHex coordinate ++ '\'' :: (", ".toList ++ commaJoin [present, missing, selection x, context] ++
        ")".toList)) := by
    have e2 : "('".toList = "(".toList ++ "'".toList := by decide
    have e3 : ∀ l : List Char, '\'' :: l = "'".toList ++ l := fun l => rfl
    simp only [reprCompensatedArgs, reprTuple, commaJoin, reprElem, e2, e3, List.append_assoc]
  rw [hp, hp']
  have := readAfter_infix "('".toList pre (", ".toList ++ commaJoin [present, missing, selection x, context] ++
        ")".toList ++ post) coordinate
  simpa only [List.append_assoc, List.cons_append] using this

/-- A process with four cores that used a scheduler in a `with` block and keeps it: object 1 is closed. -/
theorem closed_after_with : ((Proc.imported (some 4)).run extraSmall (withBlock 1)).ClosedScheduler 1 :=
  ⟨_, _, _, rfl, rfl, rfl, rfl, rfl⟩

/-- In that process the log shows the key 11 of a guardian whose shares are computed with the scheduler. -/
example : ∃ text, (30, text) ∈ ((Proc.imported (some 4)).run extraSmall (withBlock 1)).scheduleLog 1
      (fun n : Nat => Except.ok n) "share".toList
      (reprShareArgs (fun _ => "x".toList) (fun _ => "s".toList) "c".toList ⟨"g", 1, ⟨11, 16 ^ 11 % 157⟩, []⟩)
      "exception ValueError(Pool not running)".toList (fun _ => []) [1, 2] ∧
    11 ∈ readAfter "secret_key='".toList text :=
  C116_secret_key_fails _ 1 _ _ _ _ _ _ _ ⟨"g", 1, ⟨11, 16 ^ 11 % 157⟩, []⟩ [1, 2] (by simp) (Or.inl closed_after_with)

/-- The open scheduler of a fresh process, and tasks that return. -/
example : ((Proc.imported (some 4)).run extraSmall [.new .scheduler]).scheduleLog 1 (fun n : Nat => Except.ok n)
    "share".toList (fun _ => []) [] (fun _ => []) [1, 2] = [] :=
  C116_silent_partial _ 1 _ _ _ _ _ _ ⟨_, _, _, rfl, rfl, rfl, rfl, rfl⟩ (fun a _ => ⟨a, rfl⟩)

/-! ### C117 -/

/-- The handlers have different numbers, all of which were given out. -/
structure LogState.Wf (s : LogState) : Prop where
  nodup : (s.handlers.map (·.id)).Nodup
  old : ∀ h ∈ s.handlers, h.id < s.next
  pos : 1 ≤ s.next
  stream : s.stream = 0

theorem Wf_initial : LogState.initial.Wf := ⟨by decide, by decide, by decide, rfl⟩

theorem Wf_remove {s : LogState} (h : s.Wf) (id : Nat) : (s.remove id).Wf :=
  ⟨h.nodup.sublist (List.Sublist.map _ (List.filter_sublist ..)), fun x hx => h.old x (List.mem_filter.1 hx).1, h.pos, h.stream⟩

theorem addNew_eq {s : LogState} (h : s.Wf) (level : Nat) : (s.make level).2.add (s.make level).1
    = ⟨s.handlers ++ [⟨s.next, level⟩], s.stream, s.next + 1⟩ := by
  unfold LogState.add LogState.make
  rw [if_neg]
  simp only [List.any_eq_true, beq_iff_eq, not_exists, not_and]
  exact fun x hx => Nat.ne_of_lt (h.old x hx)

theorem Wf_addNew {s : LogState} (h : s.Wf) (level : Nat) : ((s.make level).2.add (s.make level).1).Wf := by
  rw [addNew_eq h]
  refine ⟨?_, ?_, by simp, h.stream⟩
  · simp only [List.map_append, List.map_cons, List.map_nil]
    rw [List.nodup_append]
    refine ⟨h.nodup, by simp, ?_⟩
    intro a ha b hb
    obtain ⟨x, hx, rfl⟩ := List.mem_map.1 ha
    simp only [List.mem_singleton] at hb
    subst hb
    exact Nat.ne_of_lt (h.old x hx)
  · intro x hx
    rcases List.mem_append.1 hx with hx | hx
    · exact Nat.lt_succ_of_lt (h.old x hx)
    · simp only [List.mem_singleton] at hx
      subst hx
      simp

theorem setStream_eq {s : LogState} (h : s.Wf) (level : Nat) : s.setStreamLevel level
    = ⟨s.handlers.filter (fun x => !(x.id == 0)) ++ [⟨s.next, level⟩], 0, s.next + 1⟩ := by
  have := addNew_eq (Wf_remove h s.stream) level
  rw [LogState.setStreamLevel, show ((s.remove s.stream).make level) = (((s.remove s.stream).make level).1,
    ((s.remove s.stream).make level).2) from rfl]
  simp only
  rw [this, LogState.remove]
  simp only [h.stream]

theorem Wf_setStream {s : LogState} (h : s.Wf) (level : Nat) : (s.setStreamLevel level).Wf := by
  have := Wf_addNew (Wf_remove h s.stream) level
  exact this

theorem Wf_step {s : LogState} (h : s.Wf) (op : LogOp) : (s.step op).Wf := by
  cases op with
  | setStreamLevel l => exact Wf_setStream h l
  | addNew l => exact Wf_addNew h l
  | remove i => exact Wf_remove h i
  | eel => exact Wf_addNew (Wf_setStream h 10) 10

theorem Wf_run {s : LogState} (h : s.Wf) (ops : List LogOp) : (s.run ops).Wf := by
  induction ops generalizing s with
  | nil => exact h
  | cons op ops ih => exact ih (Wf_step h op)

/-- Whatever was called, every handler writes a message at most once. -/
theorem C117_once (ops : List LogOp) (level : Nat) :
    (((LogState.initial.run ops).emit level).map (·.id)).Nodup := by
  unfold LogState.emit
  split
  · simp
  · exact (Wf_run Wf_initial ops).nodup.sublist (List.Sublist.map _ (List.filter_sublist ..))

theorem kept_step {s : LogState} (hw : s.Wf) {h : LogHandler} (hm : h ∈ s.handlers) (h0 : h.id ≠ 0) {op : LogOp}
    (hr : ¬ op.Removes h.id) : h ∈ (s.step op).handlers := by
  have hset : ∀ l, h ∈ (s.setStreamLevel l).handlers := by
    intro l
    rw [setStream_eq hw]
    exact List.mem_append_left _ (List.mem_filter.2 ⟨hm, by simpa using h0⟩)
  cases op with
  | setStreamLevel l => exact hset l
  | addNew l =>
    show h ∈ ((s.make l).2.add (s.make l).1).handlers
    rw [addNew_eq hw]
    exact List.mem_append_left _ hm
  | remove i => exact List.mem_filter.2 ⟨hm, by simpa using fun hc => hr hc.symm⟩
  | eel =>
    show h ∈ (((s.setStreamLevel 10).make 10).2.add ((s.setStreamLevel 10).make 10).1).handlers
    rw [addNew_eq (Wf_setStream hw 10)]
    exact List.mem_append_left _ (hset 10)

/-- A handler that was added writes the messages from its level on, once each, until it is removed; setting the level of
the stream does not change that. -/
theorem C117_added (ops later : List LogOp) (own level : Nat) (hl : 10 ≤ level) :
    let s := LogState.initial.run ops
    (∀ op ∈ later, ¬ op.Removes s.next) →
    (((s.step (.addNew own)).run later).emit level).countP (fun h => h.id == s.next) = if own ≤ level then 1 else 0 := by
  intro s hr
  have hw : s.Wf := Wf_run Wf_initial ops
  have hm : (⟨s.next, own⟩ : LogHandler) ∈ (s.step (.addNew own)).handlers := by
    show _ ∈ ((s.make own).2.add (s.make own).1).handlers
    rw [addNew_eq hw]
    exact List.mem_append_right _ (List.mem_singleton.2 rfl)
  have key : ∀ (t : LogState) (later : List LogOp), t.Wf → (⟨s.next, own⟩ : LogHandler) ∈ t.handlers →
      (∀ op ∈ later, ¬ op.Removes s.next) → (⟨s.next, own⟩ : LogHandler) ∈ (t.run later).handlers := by
    intro t later
    induction later generalizing t with
    | nil => intro _ h _; exact h
    | cons op later ih =>
      intro hw' h hr
      exact ih (t.step op) (Wf_step hw' op)
        (kept_step hw' h (by have := hw.pos; simp only; omega) (hr op (List.mem_cons_self ..)))
        (fun o ho => hr o (List.mem_cons_of_mem _ ho))
  have hm' := key _ later (Wf_step hw _) hm hr
  have hw' : ((s.step (.addNew own)).run later).Wf := Wf_run (Wf_step hw _) later
  generalize (s.step (.addNew own)).run later = t at hm' hw'
  unfold LogState.emit
  rw [if_neg (by omega), List.countP_filter]
  have hu : ∀ x ∈ t.handlers, x.id = s.next → x = ⟨s.next, own⟩ := fun x hx hid =>
    List.inj_on_of_nodup_map hw'.nodup hx hm' hid
  have hc : t.handlers.countP (fun x => x.id == s.next && decide (x.level ≤ level))
      = t.handlers.countP (fun x => decide (own ≤ level) && (x == (⟨s.next, own⟩ : LogHandler))) := by
    refine List.countP_congr (fun x hx => ?_)
    simp only [Bool.and_eq_true, beq_iff_eq, decide_eq_true_eq]
    constructor
    · rintro ⟨h1, h2⟩
      have := hu x hx h1
      subst this
      exact ⟨h2, rfl⟩
    · rintro ⟨h1, rfl⟩
      exact ⟨rfl, h1⟩
  rw [hc]
  split
  · rename_i hle
    simp only [hle, decide_true, Bool.true_and]
    have : t.handlers.count (⟨s.next, own⟩ : LogHandler) = 1 :=
      List.count_eq_one_of_mem (List.Nodup.of_map _ hw'.nodup) hm'
    exact this
  · rename_i hle
    simp [hle]

/-- After setting the level of the stream several times, a message is written once for every level set that it
reaches: all the old handlers but the first are still there. -/
theorem C117_levels (levels : List Nat) (level : Nat) (hl : 10 ≤ level) (hne : levels ≠ []) :
    ((LogState.initial.run (levels.map .setStreamLevel)).emit level).length = levels.countP (fun l => decide (l ≤ level)) := by
  have key : ∀ (levels : List Nat) (s : LogState), s.Wf → (∀ h ∈ s.handlers, h.id ≠ 0) →
      ((s.run (levels.map .setStreamLevel)).handlers.map (·.level)) = s.handlers.map (·.level) ++ levels := by
    intro levels
    induction levels with
    | nil => intro s _ _; simp [LogState.run]
    | cons l ls ih =>
      intro s hw h0
      have hf : s.handlers.filter (fun x => !(x.id == 0)) = s.handlers :=
        List.filter_eq_self.2 (fun x hx => by simpa using h0 x hx)
      have e : s.setStreamLevel l = ⟨s.handlers ++ [⟨s.next, l⟩], 0, s.next + 1⟩ := by rw [setStream_eq hw, hf]
      show ((s.setStreamLevel l).run (ls.map .setStreamLevel)).handlers.map (·.level) = _
      rw [ih _ (Wf_setStream hw l), e]
      · simp
      · rw [e]
        intro x hx
        rcases List.mem_append.1 hx with hx | hx
        · exact h0 x hx
        · simp only [List.mem_singleton] at hx
          subst hx
          have := hw.pos
          simp only
          omega
  have hlen : ∀ s : LogState, (s.emit level).length = (s.handlers.map (·.level)).countP (fun l => decide (l ≤ level)) := by
    intro s
    unfold LogState.emit
    rw [if_neg (by omega), List.countP_map, List.countP_eq_length_filter]
    rfl
  rw [hlen]
  cases levels with
  | nil => exact absurd rfl hne
  | cons l ls =>
    show (((LogState.initial.setStreamLevel l).run (ls.map .setStreamLevel)).handlers.map (·.level)).countP _ = _
    have e : LogState.initial.setStreamLevel l = ⟨[⟨1, l⟩], 0, 2⟩ := by
      rw [setStream_eq Wf_initial]; rfl
    rw [key ls _ (Wf_setStream Wf_initial l), e]
    · rfl
    · rw [e]; simp

/-- The level holds if it is set at most once: a message from the level on is written once, any other not at all. -/
theorem C117_level_partial (set : Option Nat) (level : Nat) (hl : 10 ≤ level) :
    ((LogState.initial.run (set.toList.map .setStreamLevel)).emit level).length
      = if set.getD 20 ≤ level then 1 else 0 := by
  cases set with
  | none =>
    simp only [Option.toList_none, List.map_nil, LogState.run, List.foldl_nil, LogState.initial, LogState.emit,
      if_neg (show ¬ level < 10 by omega), Option.getD_none]
    by_cases h : 20 ≤ level <;> simp [h]
  | some l =>
    rw [show (some l).toList = [l] from rfl, C117_levels [l] level hl (by simp)]
    by_cases h : l ≤ level <;> simp [h]

/-- Set twice it does not hold: after `WARNING` and then `ERROR`, warnings are still written, and errors twice. -/
theorem C117_second_level_fails :
    ¬ ∀ (l1 l2 level : Nat), 10 ≤ level →
      ((LogState.initial.run [.setStreamLevel l1, .setStreamLevel l2]).emit level).length = if l2 ≤ level then 1 else 0 := by
  intro h
  exact absurd (h 30 40 30 (by decide)) (by decide)

/-- The GUI writes every message to the stream and to its file, from `DEBUG` on. -/
theorem C117_gui (level : Nat) (hl : 10 ≤ level) : (LogState.initial.run [.eel]).emit level = [⟨1, 10⟩, ⟨2, 10⟩] := by
  have e : LogState.initial.run [.eel] = ⟨[⟨1, 10⟩, ⟨2, 10⟩], 0, 3⟩ := by decide
  rw [e]
  simp [LogState.emit, hl, Nat.not_lt.2 hl]

/-- If all handlers were removed, warnings and errors go to `stderr`, other messages are lost; with a handler nothing
goes there. -/
theorem C117_stderr (ops : List LogOp) (level : Nat) :
    (LogState.initial.run ops).stderr level = true ↔ (LogState.initial.run ops).handlers = [] ∧ 30 ≤ level := by
  simp only [LogState.stderr, Bool.and_eq_true, decide_eq_true_eq, List.isEmpty_iff]
  constructor
  · rintro ⟨⟨-, h⟩, h'⟩; exact ⟨h, h'⟩
  · rintro ⟨h, h'⟩; exact ⟨⟨by omega, h⟩, h'⟩

/-- Levels 30, 40, 20: an error is written three times, an information once. -/
example : ((LogState.initial.run ([30, 40, 20].map .setStreamLevel)).emit 40).length = 3 ∧
    ((LogState.initial.run ([30, 40, 20].map .setStreamLevel)).emit 20).length = 1 := by
  constructor <;> rw [C117_levels _ _ (by decide) (by simp)] <;> decide

/-- A file handler at level `DEBUG`, added after the stream was set and before it was set again. -/
example : (((LogState.initial.run [.setStreamLevel 30]).step (.addNew 10)).run [.setStreamLevel 50, .remove 1]).emit 10
    = [⟨2, 10⟩] := by decide

/-- Without the first handler nothing but warnings is seen. -/
example : (LogState.initial.run [.remove 0]).stderr 30 = true ∧ (LogState.initial.run [.remove 0]).stderr 20 = false := by
  decide

end EG
