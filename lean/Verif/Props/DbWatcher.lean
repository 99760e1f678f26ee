import Verif.Spec.DbWatcher
import Verif.Lemmas.Dict

/-!
# C91: pages learn of changes
-/

namespace EG

theorem reportsOf_append (s : WatchState) (i j : Nat) (c : String × String) (l : List (Nat × String × String))
    (h : s.reports = l ++ [(j, c)]) :
    s.reportsOf i = l.filterMap (fun r => if r.1 = i then some r.2 else none) ++ if j = i then [c] else [] := by
  simp only [WatchState.reportsOf, h, List.filterMap_append]
  by_cases hj : j = i <;> simp [hj]

theorem wants_iff (w : Watch) (id : String) : w.wants id = true ↔ w.target = none ∨ w.target = some id := by
  unfold Watch.wants
  cases h : w.target with
  | none => simp
  | some t => simp

theorem changesFor_append (t : Option String) (l l' : List Delta) : changesFor t (l ++ l') = changesFor t l ++ changesFor t l' := by
  simp [changesFor]

theorem changesFor_some (w : Watch) (c : String × String) :
    changesFor w.target [some c] = if w.wants c.2 then [c] else [] := by
  by_cases h : w.wants c.2 = true
  · have := (wants_iff w c.2).1 h
    simp [changesFor, h, this]
  · have h' := h
    rw [wants_iff] at h'
    simp [changesFor, h, h']

theorem changesFor_none (t : Option String) : changesFor t [none] = [] := rfl

/-- What one event does to one watch: nothing that it can see, or a turn of its own. -/
theorem step_other (s : WatchState) (i : Nat) (w : Watch) (hw : dget s.watches i = some w) (ev : WatchEvent) (hev : ev ≠ .turn i) :
    (s.step ev).reportsOf i = s.reportsOf i ∧
      ∃ w', dget (s.step ev).watches i = some w' ∧ w'.pos = w.pos ∧ w'.target = w.target ∧ w'.phase = w.phase ∧
        (w'.alive = true → w.alive = true) ∧ (ev ≠ .kill i → w' = w) := by
  cases ev with
  | insert c id => exact ⟨rfl, w, hw, rfl, rfl, rfl, fun h => h, fun _ => rfl⟩
  | «open» j t =>
    simp only [WatchState.step]
    split
    · exact ⟨rfl, w, hw, rfl, rfl, rfl, fun h => h, fun _ => rfl⟩
    · rename_i hj
      refine ⟨rfl, w, ?_, rfl, rfl, rfl, fun h => h, fun _ => rfl⟩
      show dget (dset s.watches j _) i = some w
      rw [dget_dset, if_neg, hw]
      rintro rfl
      rw [hw] at hj
      cases hj
  | stop => exact ⟨rfl, w, hw, rfl, rfl, rfl, fun h => h, fun _ => rfl⟩
  | kill j =>
    simp only [WatchState.step]
    split
    · exact ⟨rfl, w, hw, rfl, rfl, rfl, fun h => h, fun _ => rfl⟩
    · rename_i v hj
      refine ⟨rfl, ?_⟩
      show ∃ w', dget (dset s.watches j _) i = some w' ∧ _
      rw [dget_dset]
      split
      · rename_i hji
        subst hji
        rw [hw] at hj
        cases hj
        exact ⟨_, rfl, rfl, rfl, rfl, fun h => (by cases h), fun h => absurd rfl h⟩
      · exact ⟨w, hw, rfl, rfl, rfl, fun h => h, fun _ => rfl⟩
  | turn j =>
    have hji : j ≠ i := fun h => hev (h ▸ rfl)
    have hset : ∀ v, dget (dset s.watches j v) i = some w := by
      intro v
      rw [dget_dset, if_neg hji, hw]
    simp only [WatchState.step]
    split
    · exact ⟨rfl, w, hw, rfl, rfl, rfl, fun h => h, fun _ => rfl⟩
    · rename_i v hj
      simp only [WatchState.turn]
      split
      · exact ⟨rfl, w, hw, rfl, rfl, rfl, fun h => h, fun _ => rfl⟩
      · split
        · exact ⟨rfl, w, hset _, rfl, rfl, rfl, fun h => h, fun _ => rfl⟩
        · split
          · exact ⟨rfl, w, hset _, rfl, rfl, rfl, fun h => h, fun _ => rfl⟩
          · exact ⟨rfl, w, hset _, rfl, rfl, rfl, fun h => h, fun _ => rfl⟩
      · split
        · split
          · exact ⟨rfl, w, hw, rfl, rfl, rfl, fun h => h, fun _ => rfl⟩
          · exact ⟨rfl, w, hset _, rfl, rfl, rfl, fun h => h, fun _ => rfl⟩
          · rename_i c id hd
            refine ⟨?_, w, hset _, rfl, rfl, rfl, fun h => h, fun _ => rfl⟩
            by_cases hwt : v.wants id = true
            · simp [WatchState.reportsOf, hwt, hji]
            · simp [WatchState.reportsOf, hwt]
        · exact ⟨rfl, w, hset _, rfl, rfl, rfl, fun h => h, fun _ => rfl⟩

/-- Deltas are only added. -/
theorem step_deltas (s : WatchState) (ev : WatchEvent) : ∃ new, (s.step ev).deltas = s.deltas ++ new := by
  cases ev with
  | insert c id => exact ⟨_, rfl⟩
  | «open» j t =>
    simp only [WatchState.step]
    split <;> exact ⟨[], by simp⟩
  | stop => exact ⟨[], by simp [WatchState.step]⟩
  | kill j =>
    simp only [WatchState.step]
    split <;> exact ⟨[], by simp⟩
  | turn j =>
    simp only [WatchState.step]
    split
    · exact ⟨[], by simp⟩
    · simp only [WatchState.turn]
      split
      · exact ⟨[], by simp⟩
      · split
        · exact ⟨[], by simp⟩
        · split <;> exact ⟨[], by simp⟩
      · split
        · split <;> exact ⟨[], by simp⟩
        · exact ⟨[], by simp⟩

theorem steps_deltas (s : WatchState) (es : List WatchEvent) : ∃ new, (s.steps es).deltas = s.deltas ++ new := by
  induction es generalizing s with
  | nil => exact ⟨[], by simp [WatchState.steps]⟩
  | cons ev es ih =>
    obtain ⟨n1, h1⟩ := step_deltas s ev
    obtain ⟨n2, h2⟩ := ih (s.step ev)
    exact ⟨n1 ++ n2, by rw [← List.append_assoc, ← h1, ← h2]; rfl⟩

/-- A watch that is in its loop or over, relative to the place where it was. -/
structure WatchFrom (i : Nat) (start : Nat) (before : List (String × String)) (target : Option String) (s : WatchState) : Prop where
  here : ∃ w, dget s.watches i = some w ∧ w.target = target ∧ w.phase ≠ .skipping ∧ start ≤ w.pos ∧
    (w.pos ≤ s.deltas.length) ∧
    s.reportsOf i = before ++ changesFor target ((s.deltas.drop start).take (w.pos - start))

theorem take_drop_succ (l : List Delta) (a p : Nat) (d : Delta) (hap : a ≤ p) (hd : l[p]? = some d) :
    (l.drop a).take (p + 1 - a) = (l.drop a).take (p - a) ++ [d] := by
  rw [Nat.succ_sub hap, List.take_add_one, List.getElem?_drop, Nat.add_sub_cancel' hap, hd]
  rfl

theorem WatchFrom.step {i start : Nat} {before : List (String × String)} {target : Option String} {s : WatchState}
    (h : WatchFrom i start before target s) (ev : WatchEvent) : WatchFrom i start before target (s.step ev) := by
  obtain ⟨w, hw, ht, hph, hsp, hpl, hrep⟩ := h.here
  by_cases hev : ev = .turn i
  · subst hev
    simp only [WatchState.step, hw, WatchState.turn]
    split
    · exact ⟨w, hw, ht, hph, hsp, hpl, hrep⟩
    · rename_i hsk
      exact absurd hsk hph
    · rename_i hl
      split
      · split
        · exact ⟨w, hw, ht, hph, hsp, hpl, hrep⟩
        · rename_i hd
          refine ⟨{ w with pos := w.pos + 1, phase := .over }, ?_, ht, by simp, by simp; omega, ?_, ?_⟩
          · show dget (dset s.watches i _) i = _
            rw [dget_dset, if_pos rfl]
          · have := (List.getElem?_eq_some_iff.1 hd).1
            exact this
          · show s.reportsOf i = before ++ changesFor target ((s.deltas.drop start).take (w.pos + 1 - start))
            rw [take_drop_succ _ _ _ _ hsp hd, changesFor_append, changesFor_none, List.append_nil, hrep]
        · rename_i c id hd
          refine ⟨{ w with pos := w.pos + 1 }, ?_, ht, hph, by simp; omega, ?_, ?_⟩
          · show dget (dset s.watches i _) i = _
            rw [dget_dset, if_pos rfl]
          · have := (List.getElem?_eq_some_iff.1 hd).1
            exact this
          · rw [take_drop_succ _ _ _ _ hsp hd, changesFor_append, ← ht, changesFor_some, ← List.append_assoc]
            rw [← ht] at hrep
            rw [← hrep]
            by_cases hwt : w.wants id = true
            · simp [WatchState.reportsOf, hwt]
            · simp [WatchState.reportsOf, hwt]
      · refine ⟨{ w with phase := .over }, ?_, ht, by simp, hsp, hpl, hrep⟩
        show dget (dset s.watches i _) i = _
        rw [dget_dset, if_pos rfl]
  · obtain ⟨hr, w', hw', hp, ht', hph', -⟩ := step_other s i w hw ev hev
    obtain ⟨new, hnew⟩ := step_deltas s ev
    refine ⟨w', hw', ht'.trans ht, hph' ▸ hph, hp ▸ hsp, ?_, ?_⟩
    · rw [hp, hnew, List.length_append]
      omega
    · rw [hr, hrep, hp, hnew]
      congr 2
      rw [List.drop_append_of_le_length (by omega), List.take_append_of_le_length (by simp; omega)]

theorem WatchFrom.steps {i start : Nat} {before : List (String × String)} {target : Option String} {s : WatchState}
    (h : WatchFrom i start before target s) (es : List WatchEvent) : WatchFrom i start before target (s.steps es) := by
  induction es generalizing s with
  | nil => exact h
  | cons ev es ih => exact ih (h.step ev)

/-- What holds in all states of a process: only the first delta has no fields; a watch that is still skipping has reported nothing and
is behind the deltas; an alive one in its loop has passed the first delta. -/
structure WatchInv (s : WatchState) : Prop where
  deltas : ∃ rest : List (String × String), s.deltas = none :: rest.map some
  unknown : ∀ i, dget s.watches i = none → s.reportsOf i = []
  pos : ∀ i w, dget s.watches i = some w → w.pos ≤ s.deltas.length
  skipping : ∀ i w, dget s.watches i = some w → w.phase = .skipping → s.reportsOf i = []
  passed : ∀ i w, dget s.watches i = some w → w.phase = .looping → w.alive = true → 0 < w.pos

theorem step_unknown (s : WatchState) (i : Nat) (hw : dget s.watches i = none) (ev : WatchEvent) :
    (s.step ev).reportsOf i = s.reportsOf i ∧ (dget (s.step ev).watches i = none ∨
      ∃ t, ev = .open i t ∧ dget (s.step ev).watches i = some ⟨t, 0, decide (s.deltas ≠ []), .skipping⟩) := by
  cases ev with
  | insert c id => exact ⟨rfl, .inl hw⟩
  | «open» j t =>
    by_cases hji : j = i
    · subst hji
      simp only [WatchState.step, hw]
      exact ⟨rfl, .inr ⟨t, rfl, by rw [dget_dset, if_pos rfl]⟩⟩
    · simp only [WatchState.step]
      split
      · exact ⟨rfl, .inl hw⟩
      · refine ⟨rfl, .inl ?_⟩
        show dget (dset s.watches j _) i = none
        rw [dget_dset, if_neg hji, hw]
  | stop => exact ⟨rfl, .inl hw⟩
  | kill j =>
    simp only [WatchState.step]
    split
    · exact ⟨rfl, .inl hw⟩
    · rename_i v hj
      have hji : j ≠ i := by
        rintro rfl
        rw [hw] at hj
        cases hj
      refine ⟨rfl, .inl ?_⟩
      show dget (dset s.watches j _) i = none
      rw [dget_dset, if_neg hji, hw]
  | turn j =>
    simp only [WatchState.step]
    split
    · exact ⟨rfl, .inl hw⟩
    · rename_i v hj
      have hji : j ≠ i := by
        rintro rfl
        rw [hw] at hj
        cases hj
      have hset : ∀ v, dget (dset s.watches j v) i = none := by
        intro v
        rw [dget_dset, if_neg hji, hw]
      simp only [WatchState.turn]
      split
      · exact ⟨rfl, .inl hw⟩
      · split
        · exact ⟨rfl, .inl (hset _)⟩
        · split <;> exact ⟨rfl, .inl (hset _)⟩
      · split
        · split
          · exact ⟨rfl, .inl hw⟩
          · exact ⟨rfl, .inl (hset _)⟩
          · rename_i c id hd
            refine ⟨?_, .inl (hset _)⟩
            by_cases hwt : v.wants id = true
            · simp [WatchState.reportsOf, hwt, hji]
            · simp [WatchState.reportsOf, hwt]
        · exact ⟨rfl, .inl (hset _)⟩

theorem WatchInv.length_pos {s : WatchState} (h : WatchInv s) : 0 < s.deltas.length := by
  obtain ⟨rest, hr⟩ := h.deltas
  rw [hr]
  simp

theorem WatchInv.step {s : WatchState} (h : WatchInv s) (ev : WatchEvent) : WatchInv (s.step ev) := by
  have hdel : ∃ rest : List (String × String), (s.step ev).deltas = none :: rest.map some := by
    obtain ⟨rest, hr⟩ := h.deltas
    cases ev with
    | insert c id => exact ⟨rest ++ [(c, id)], by simp [WatchState.step, hr]⟩
    | «open» j t => simp only [WatchState.step]; split <;> exact ⟨rest, hr⟩
    | stop => exact ⟨rest, hr⟩
    | kill j => simp only [WatchState.step]; split <;> exact ⟨rest, hr⟩
    | turn j =>
      simp only [WatchState.step]
      split
      · exact ⟨rest, hr⟩
      · simp only [WatchState.turn]
        split
        · exact ⟨rest, hr⟩
        · split
          · exact ⟨rest, hr⟩
          · split <;> exact ⟨rest, hr⟩
        · split
          · split <;> exact ⟨rest, hr⟩
          · exact ⟨rest, hr⟩
  obtain ⟨new, hnew⟩ := step_deltas s ev
  have hlen : s.deltas.length ≤ (s.step ev).deltas.length := by
    rw [hnew, List.length_append]
    omega
  -- the watch `i` after the event
  have main : ∀ i w', dget (s.step ev).watches i = some w' →
      w'.pos ≤ (s.step ev).deltas.length ∧ (w'.phase = .skipping → (s.step ev).reportsOf i = []) ∧
      (w'.phase = .looping → w'.alive = true → 0 < w'.pos) := by
    intro i w' hw'
    cases hw : dget s.watches i with
    | none =>
      obtain ⟨hr, hn | ⟨t, rfl, hs⟩⟩ := step_unknown s i hw ev
      · rw [hn] at hw'
        cases hw'
      · rw [hs] at hw'
        cases hw'
        exact ⟨Nat.zero_le _, fun _ => hr.trans (h.unknown i hw), fun hc => (by cases hc)⟩
    | some w =>
      by_cases hev : ev = .turn i
      · subst hev
        simp only [WatchState.step, hw] at hw' ⊢
        have hp := h.pos i w hw
        have hone : ∀ (v : Watch), dget (dset s.watches i v) i = some w' → v = w' := by
          intro v hv
          rw [dget_dset, if_pos rfl] at hv
          exact Option.some.inj hv
        unfold WatchState.turn at hw' ⊢
        cases hph : w.phase with
        | over =>
          rw [hph] at hw'
          simp only [hw, Option.some.injEq] at hw'
          subst hw'
          exact ⟨hp, fun hc => (by rw [hph] at hc; cases hc), fun hc => (by rw [hph] at hc; cases hc)⟩
        | skipping =>
          rw [hph] at hw'
          simp only at hw' ⊢
          split at hw'
          · rename_i hc
            simp only [Bool.and_eq_true, decide_eq_true_eq] at hc
            rw [if_pos (by simp [hc])]
            have := hone _ hw'
            subst this
            exact ⟨Nat.succ_le_of_lt hc.2, fun _ => h.skipping i w hw hph, fun hc' => (by simp [hph] at hc')⟩
          · rename_i hc
            rw [if_neg hc]
            have hfl : ∀ t : WatchState, (if s.flag = true then { s with flag := false } else s) = t →
                t.deltas = s.deltas ∧ t.watches = s.watches ∧ t.reports = s.reports := by
              rintro t rfl
              split <;> exact ⟨rfl, rfl, rfl⟩
            obtain ⟨h1, h2, h3⟩ := hfl _ rfl
            rw [h2] at hw'
            have := hone _ hw'
            subst this
            refine ⟨by simpa [h1] using hp, fun hc' => (by cases hc'), ?_⟩
            intro _ hal
            simp only [Bool.and_eq_true, decide_eq_true_eq, not_and, Nat.not_lt] at hc
            have := hc hal
            have := h.length_pos
            simp only
            omega
        | looping =>
          rw [hph] at hw'
          simp only at hw' ⊢
          split at hw'
          · rename_i hc
            rw [if_pos hc]
            cases hd : s.deltas[w.pos]? with
            | none =>
              rw [hd] at hw'
              simp only [hw, Option.some.injEq] at hw'
              subst hw'
              exact ⟨hp, fun hc' => (by rw [hph] at hc'; cases hc'), h.passed i w hw⟩
            | some d =>
              have hlt := (List.getElem?_eq_some_iff.1 hd).1
              cases d with
              | none =>
                rw [hd] at hw'
                have := hone _ hw'
                subst this
                exact ⟨hlt, fun hc' => (by cases hc'), fun hc' => (by cases hc')⟩
              | some c =>
                rw [hd] at hw'
                have := hone _ hw'
                subst this
                exact ⟨hlt, fun hc' => (by simp [hph] at hc'), fun _ _ => Nat.succ_pos _⟩
          · rename_i hc
            rw [if_neg hc]
            have := hone _ hw'
            subst this
            exact ⟨hp, fun hc' => (by cases hc'), fun hc' => (by cases hc')⟩
      · obtain ⟨hr, v, hv, h1, h2, h3, h4, -⟩ := step_other s i w hw ev hev
        rw [hv] at hw'
        cases hw'
        refine ⟨?_, ?_, ?_⟩
        · have := h.pos i w hw
          omega
        · intro hs
          rw [hr]
          exact h.skipping i w hw (h3 ▸ hs)
        · intro hl ha
          rw [h1]
          exact h.passed i w hw (h3 ▸ hl) (h4 ha)
  refine ⟨hdel, ?_, fun i w hw => (main i w hw).1, fun i w hw => (main i w hw).2.1, fun i w hw => (main i w hw).2.2⟩
  intro i hi
  cases hw : dget s.watches i with
  | none =>
    obtain ⟨hr, -⟩ := step_unknown s i hw ev
    exact hr.trans (h.unknown i hw)
  | some w =>
    exfalso
    by_cases hev : ev = .turn i
    · subst hev
      have key : ∃ v, dget (s.turn i w).watches i = some v := by
        unfold WatchState.turn
        split
        · exact ⟨w, hw⟩
        · split
          · exact ⟨_, by rw [dget_dset, if_pos rfl]⟩
          · exact ⟨_, by rw [dget_dset, if_pos rfl]⟩
        · split
          · split
            · exact ⟨w, hw⟩
            · exact ⟨_, by rw [dget_dset, if_pos rfl]⟩
            · exact ⟨_, by rw [dget_dset, if_pos rfl]⟩
          · exact ⟨_, by rw [dget_dset, if_pos rfl]⟩
      obtain ⟨v, hv⟩ := key
      simp only [WatchState.step, hw] at hi
      rw [hv] at hi
      cases hi
    · obtain ⟨-, v, hv, -⟩ := step_other s i w hw ev hev
      rw [hv] at hi
      cases hi

theorem WatchInv.init : WatchInv .init := by
  refine ⟨⟨[], rfl⟩, ?_, ?_, ?_, ?_⟩ <;> intros <;> simp_all [WatchState.init, WatchState.reportsOf, dget]

theorem WatchInv.steps {s : WatchState} (h : WatchInv s) (es : List WatchEvent) : WatchInv (s.steps es) := by
  induction es generalizing s with
  | nil => exact h
  | cons ev es ih => exact ih (h.step ev)

/-- The turn with which a watch goes from skipping to its loop. -/
theorem turn_begins {s : WatchState} {i : Nat} {w w' : Watch} (hw : dget s.watches i = some w) (hs : w.phase = .skipping)
    (hw' : dget (s.step (.turn i)).watches i = some w') (hl : w'.phase = .looping) :
    w' = { w with phase := .looping } ∧ (s.step (.turn i)).deltas = s.deltas ∧ (s.step (.turn i)).reportsOf i = s.reportsOf i ∧
      (s.step (.turn i)).flag = true ∧ (w.alive = true → s.deltas.length ≤ w.pos) := by
  simp only [WatchState.step, hw, WatchState.turn, hs] at hw' ⊢
  split at hw'
  · have : dget (dset s.watches i { w with pos := w.pos + 1 }) i = some w' := by rw [hs]; exact hw'
    rw [dget_dset, if_pos rfl] at this
    cases this
    rw [hs] at hl
    cases hl
  · rename_i hc
    rw [if_neg hc]
    have hw'' : dget (dset s.watches i { w with phase := .looping }) i = some w' := by
      split at hw' <;> exact hw'
    rw [dget_dset, if_pos rfl] at hw''
    cases hw''
    refine ⟨rfl, ?_, ?_, rfl, ?_⟩
    · split <;> rfl
    · split <;> rfl
    · intro ha
      simpa only [ha, Bool.true_and, decide_eq_true_eq, Nat.not_lt] using hc

/-- **C91**: from the time when its loop begins, a watch reports the changes that are told of from then on, and that concern its id, in
their order, each once and without a gap; when it has come to the end of the deltas, it has reported all of them.  Whatever else
happens in whatever order. -/
theorem C91_reports (es es' : List WatchEvent) (i : Nat) (w w₁ : Watch)
    (hw : dget (WatchState.init.steps es).watches i = some w) (hs : w.phase = .skipping)
    (hw₁ : dget ((WatchState.init.steps es).step (.turn i)).watches i = some w₁) (hl : w₁.phase = .looping) (ha : w₁.alive = true) :
    ∃ new k w₂, (((WatchState.init.steps es).step (.turn i)).steps es').deltas = (WatchState.init.steps es).deltas ++ new ∧
      dget (((WatchState.init.steps es).step (.turn i)).steps es').watches i = some w₂ ∧ k ≤ new.length ∧
      (((WatchState.init.steps es).step (.turn i)).steps es').reportsOf i = changesFor w.target (new.take k) ∧
      (w₂.pos = (((WatchState.init.steps es).step (.turn i)).steps es').deltas.length → k = new.length) := by
  have inv := WatchInv.init.steps es
  generalize WatchState.init.steps es = s at *
  obtain ⟨rfl, hdel, hrep, -, hpos⟩ := turn_begins hw hs hw₁ hl
  have hp : w.pos = s.deltas.length := Nat.le_antisymm (inv.pos i w hw) (hpos ha)
  have hfrom : WatchFrom i s.deltas.length [] w.target (s.step (.turn i)) := by
    refine ⟨_, hw₁, rfl, by simp, Nat.le_of_eq hp.symm, ?_, ?_⟩
    · rw [hdel]
      exact Nat.le_of_eq hp
    · rw [hrep, inv.skipping i w hw hs]
      simp [hp, changesFor]
  obtain ⟨w₂, hw₂, -, -, h1, h2, h3⟩ := (hfrom.steps es').here
  obtain ⟨new, hnew⟩ := steps_deltas (s.step (.turn i)) es'
  rw [hdel] at hnew
  rw [hnew] at h2 h3 ⊢
  rw [List.length_append] at h2 ⊢
  refine ⟨new, w₂.pos - s.deltas.length, w₂, rfl, hw₂, by omega, ?_, by omega⟩
  rw [h3, List.drop_left, List.nil_append]

/-- **C91**: a watch in its loop takes one delta in every round as long as the event stays set, so that after so many rounds as there are
deltas before it, it has come to the end of them, and is still in its loop.  The first document of the collection never makes it
raise. -/
theorem C91_catches_up (es : List WatchEvent) (i : Nat) (w : Watch) (hw : dget (WatchState.init.steps es).watches i = some w)
    (hl : w.phase = .looping) (ha : w.alive = true) (hf : (WatchState.init.steps es).flag = true) :
    let s := (WatchState.init.steps es).steps
      (List.replicate ((WatchState.init.steps es).deltas.length - w.pos) (.turn i))
    s.deltas = (WatchState.init.steps es).deltas ∧ s.flag = true ∧
      dget s.watches i = some { w with pos := (WatchState.init.steps es).deltas.length } := by
  have inv := WatchInv.init.steps es
  generalize WatchState.init.steps es = s at *
  simp only
  have hp := inv.pos i w hw
  obtain ⟨n, hn⟩ : ∃ n, n = s.deltas.length - w.pos := ⟨_, rfl⟩
  rw [← hn]
  induction n generalizing s w with
  | zero =>
    have : w.pos = s.deltas.length := by omega
    refine ⟨rfl, hf, ?_⟩
    rw [← this]
    exact hw
  | succ n ih =>
    have hlt : w.pos < s.deltas.length := by omega
    have hd : ∃ c, s.deltas[w.pos]? = some (some c) := by
      obtain ⟨rest, hr⟩ := inv.deltas
      have h0 := inv.passed i w hw hl ha
      rw [hr] at hlt ⊢
      obtain ⟨k, hk⟩ := Nat.exists_eq_succ_of_ne_zero (Nat.pos_iff_ne_zero.1 h0)
      rw [hk] at hlt ⊢
      simp only [List.length_cons, List.length_map, Nat.succ_eq_add_one, Nat.add_lt_add_iff_right] at hlt
      simp [hlt]
    obtain ⟨⟨c, id⟩, hd⟩ := hd
    have hstep : s.step (.turn i) = { s with
        watches := dset s.watches i { w with pos := w.pos + 1 }
        reports := if w.wants id then s.reports ++ [(i, c, id)] else s.reports } := by
      simp only [WatchState.step, hw, WatchState.turn, hl, hf, ha, hd, Bool.and_self, if_true]
    have hget : dget (s.step (.turn i)).watches i = some { w with pos := w.pos + 1 } := by
      rw [hstep, dget_dset, if_pos rfl]
    have hdel : (s.step (.turn i)).deltas = s.deltas := by rw [hstep]
    have := ih { w with pos := w.pos + 1 } hl ha (s.step (.turn i)) hget (by rw [hstep]; exact hf) (inv.step _)
      (by rw [hdel]; exact hlt) (by rw [hdel]; simp only; omega)
    rw [hdel] at this
    rw [List.replicate_succ]
    exact this

/-- **C91**: a watch that is over reports nothing any more. -/
theorem C91_over (s : WatchState) (es : List WatchEvent) (i : Nat) (w : Watch) (hw : dget s.watches i = some w) (ho : w.phase = .over) :
    (s.steps es).reportsOf i = s.reportsOf i ∧ ∃ w', dget (s.steps es).watches i = some w' ∧ w'.phase = .over := by
  induction es generalizing s w with
  | nil => exact ⟨rfl, w, hw, ho⟩
  | cons ev es ih =>
    by_cases hev : ev = .turn i
    · have hs : s.step ev = s := by
        subst hev
        simp only [WatchState.step, hw, WatchState.turn, ho]
      show (WatchState.steps (s.step ev) es).reportsOf i = _ ∧ _
      have := ih s w hw ho
      rw [hs]
      refine ⟨this.1, ?_⟩
      show ∃ w', dget (WatchState.steps (s.step ev) es).watches i = some w' ∧ _
      rw [hs]
      exact this.2
    · obtain ⟨hr, w', hw', -, -, hph, -⟩ := step_other s i w hw ev hev
      have := ih (s.step ev) w' hw' (hph.trans ho)
      exact ⟨this.1.trans hr, this.2⟩

/-- **C91**, stopping: once the event is cleared, and as long as no page opens and none is about to begin its loop, it stays cleared; then
a watch reports nothing any more, and it is over after its next round.  Missing: that other pages do not matter, which is false
(`C91_stop_fails`). -/
theorem C91_stop_partial (s : WatchState) (hf : s.flag = false) (hnone : ∀ j v, dget s.watches j = some v → v.phase ≠ .skipping)
    (es : List WatchEvent) (hes : ∀ j t, .open j t ∉ es) (i : Nat) (w : Watch) (hw : dget s.watches i = some w) :
    (s.steps es).reportsOf i = s.reportsOf i ∧ (s.steps es).flag = false ∧
      (.turn i ∈ es → ∃ w', dget (s.steps es).watches i = some w' ∧ w'.phase = .over) := by
  induction es generalizing s w with
  | nil => exact ⟨rfl, hf, fun h => by cases h⟩
  | cons ev es ih =>
    have hes' : ∀ j t, .open j t ∉ es := fun j t h => hes j t (List.mem_cons_of_mem _ h)
    -- the event stays cleared, and no watch goes back to skipping
    have hkeep : (s.step ev).flag = false ∧ ∀ j v, dget (s.step ev).watches j = some v → v.phase ≠ .skipping := by
      cases ev with
      | insert c id => exact ⟨hf, hnone⟩
      | «open» j t => exact absurd (List.mem_cons_self ..) (hes j t)
      | stop => exact ⟨rfl, hnone⟩
      | kill j =>
        simp only [WatchState.step]
        split
        · exact ⟨hf, hnone⟩
        · rename_i v hv
          refine ⟨hf, ?_⟩
          intro k x hx
          have hx : dget (dset s.watches j _) k = some x := hx
          rw [dget_dset] at hx
          split at hx
          · cases hx
            exact hnone j v hv
          · exact hnone k x hx
      | turn j =>
        simp only [WatchState.step]
        split
        · exact ⟨hf, hnone⟩
        · rename_i v hv
          simp only [WatchState.turn]
          split
          · exact ⟨hf, hnone⟩
          · rename_i hsk
            exact absurd hsk (hnone j v hv)
          · simp only [hf, Bool.false_and, Bool.false_eq_true, if_false]
            refine ⟨trivial, ?_⟩
            intro k x hx
            have hx : dget (dset s.watches j { v with phase := .over }) k = some x := hx
            rw [dget_dset] at hx
            split at hx
            · cases hx
              simp
            · exact hnone k x hx
    by_cases hev : ev = .turn i
    · have hnext : ∃ w', dget (s.step ev).watches i = some w' ∧ w'.phase = .over ∧ (s.step ev).reportsOf i = s.reportsOf i := by
        subst hev
        simp only [WatchState.step, hw, WatchState.turn]
        split
        · rename_i ho
          exact ⟨w, hw, ho, rfl⟩
        · rename_i hsk
          exact absurd hsk (hnone i w hw)
        · simp only [hf, Bool.false_and, Bool.false_eq_true, if_false]
          exact ⟨{ w with phase := .over }, by rw [dget_dset, if_pos rfl], rfl, rfl⟩
      obtain ⟨w', hw', ho, hr⟩ := hnext
      have h1 := ih (s.step ev) hkeep.1 hkeep.2 hes' w' hw'
      have h2 := C91_over (s.step ev) es i w' hw' ho
      exact ⟨h1.1.trans hr, h1.2.1, fun _ => h2.2⟩
    · obtain ⟨hr, w', hw', -⟩ := step_other s i w hw ev hev
      have h1 := ih (s.step ev) hkeep.1 hkeep.2 hes' w' hw'
      refine ⟨h1.1.trans hr, h1.2.1, fun hm => h1.2.2 ?_⟩
      rcases List.mem_cons.1 hm with hm | hm
      · exact absurd hm.symm hev
      · exact hm

/-! ## Where pages do not learn of changes, or learn too much -/

/-- A page (1) that watches the ceremony "k", in its loop. -/
def toyPage : List WatchEvent := [.open 1 (some "k"), .turn 1, .turn 1]

/-- `C91_reports` and `C91_catches_up`: changes of the ceremony and of others; the page learns of its own, in order. -/
example : ((WatchState.init.steps toyPage).steps
    [.insert "key_ceremonies" "k", .insert "decryptions" "d", .turn 1, .insert "key_ceremonies" "k", .turn 1, .turn 1]).reportsOf 1 =
    [("key_ceremonies", "k"), ("key_ceremonies", "k")] := by decide

/-- **C91** fails at the start: the page has read the ceremony (key_ceremony_details_component.py:76-82) and asked to watch it; then
somebody changes it while the old deltas are skipped.  The watch goes into its loop and never reports that change, in however many
rounds, although it is alive and the event is set.  The page shows the old state, and in a key ceremony the next stage waits for
it. -/
theorem C91_start_fails :
    ∃ es es' : List WatchEvent, es = [.open 1 (some "k")] ∧ es' = [.insert "key_ceremonies" "k", .turn 1, .turn 1, .turn 1] ∧
      ∀ n, let s := ((WatchState.init.steps es).steps es').steps (List.replicate n (.turn 1))
        s.reportsOf 1 = [] ∧ s.flag = true ∧ ∃ w, dget s.watches 1 = some w ∧ w.phase = .looping ∧ w.alive = true := by
  refine ⟨_, _, rfl, rfl, ?_⟩
  intro n
  simp only
  have hstay : ((WatchState.init.steps [.open 1 (some "k")]).steps
      [.insert "key_ceremonies" "k", .turn 1, .turn 1, .turn 1]).step (.turn 1) =
      (WatchState.init.steps [.open 1 (some "k")]).steps [.insert "key_ceremonies" "k", .turn 1, .turn 1, .turn 1] := by decide
  have hall : ∀ n, ((WatchState.init.steps [.open 1 (some "k")]).steps
      [.insert "key_ceremonies" "k", .turn 1, .turn 1, .turn 1]).steps (List.replicate n (.turn 1)) =
      (WatchState.init.steps [.open 1 (some "k")]).steps [.insert "key_ceremonies" "k", .turn 1, .turn 1, .turn 1] := by
    intro n
    induction n with
    | zero => rfl
    | succ n ih =>
      rw [List.replicate_succ]
      show WatchState.steps (WatchState.step _ _) _ = _
      rw [hstay, ih]
  rw [hall n]
  exact ⟨by decide, by decide, ⟨some "k", 2, true, .looping⟩, by decide, rfl, rfl⟩

/-- **C91** fails for stopping: page 1 asks to stop while its watch sleeps, and page 2 opens and sets the same event before the watch of
page 1 wakes up.  Then the watch of page 1 goes on and reports, and so do both. -/
theorem C91_stop_fails :
    ∃ es es' : List WatchEvent, es = toyPage ++ [.stop] ∧ (WatchState.init.steps es).flag = false ∧
      es' = [.open 2 none, .turn 2, .turn 2, .turn 1, .insert "key_ceremonies" "k", .turn 1, .turn 2] ∧
      ((WatchState.init.steps es).steps es').reports = [(1, "key_ceremonies", "k"), (2, "key_ceremonies", "k")] :=
  ⟨_, _, rfl, by decide, rfl, by decide⟩

/-- **C91** fails when a page asks to stop late: page 2 watches already, and the request of page 1 ends the watch of page 2 too; it never
learns of later changes. -/
theorem C91_late_stop_fails :
    ∃ es : List WatchEvent, es = toyPage ++ [.open 2 none, .turn 2, .turn 2, .stop, .turn 1, .turn 2] ∧
      ∀ es', ((WatchState.init.steps es).steps es').reportsOf 2 = [] := by
  refine ⟨_, rfl, ?_⟩
  intro es'
  have := (C91_over (WatchState.init.steps (toyPage ++ [.open 2 none, .turn 2, .turn 2, .stop, .turn 1, .turn 2])) es' 2
    ⟨none, 1, true, .over⟩ (by decide) rfl).1
  rw [this]
  decide

/-- `C91_stop_partial`: alone, the watch of page 1 ends. -/
example : ((WatchState.init.steps (toyPage ++ [.stop])).steps [.turn 1, .insert "key_ceremonies" "k", .turn 1]).reportsOf 1 = [] := by
  decide

/-- A watch over an empty collection (without the document of `mongo-init.js`), or one whose cursor is killed, ends in its first round
without a word. -/
example : ((⟨[], false, [], []⟩ : WatchState).steps [.open 1 none, .turn 1, .turn 1, .insert "decryptions" "d", .turn 1]).reports = [] := by
  decide
example : ((WatchState.init.steps toyPage).steps [.kill 1, .insert "key_ceremonies" "k", .turn 1, .turn 1]).reports = [] := by decide

end EG
