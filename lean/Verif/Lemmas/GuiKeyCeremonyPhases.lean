import Verif.Lemmas.GuiKeyCeremonyStep

/-!
# Lemmas: a key ceremony in the GUI that everybody joined comes to its end
-/

namespace EG

variable {E : Env} {loads : Bytes → R (List Char)}

/-! ### The phases -/

/-- Guardians are counted once. -/
def KCPhase.Sane (ids : List String) : KCPhase → Prop
  | .backups made => made.Nodup ∧ ∀ x ∈ made, x ∈ ids
  | .verifying done => done.Nodup ∧ ∀ x ∈ done, x ∈ ids
  | _ => True

/-- The keys are announced. -/
def KCPhase.Announced : KCPhase → Prop
  | .joined => False
  | _ => True

/-- The backups of a guardian are made. -/
def KCPhase.Made (x : String) : KCPhase → Prop
  | .joined => False
  | .backups made => x ∈ made
  | _ => True

/-- The backups are shared. -/
def KCPhase.Shared : KCPhase → Prop
  | .verifying _ => True
  | .complete => True
  | _ => False

/-- A guardian has checked its backups. -/
def KCPhase.Checked (ids : List String) (x : String) : KCPhase → Prop
  | .verifying done => x ∈ done ∨ ids.length = 1
  | .complete => True
  | _ => False

theorem KCPhase.next_sane (ids : List String) (u : String) (a : Bool) (ph : KCPhase) (h : ph.Sane ids) :
    (ph.next ids u a).Sane ids := by
  have add : ∀ l : List String, l.Nodup → (∀ x ∈ l, x ∈ ids) → u ∈ ids → u ∉ l →
      (l ++ [u]).Nodup ∧ ∀ x ∈ l ++ [u], x ∈ ids := by
    intro l h1 h2 h3 h4
    refine ⟨List.nodup_append.2 ⟨h1, List.nodup_singleton _, fun x hx y hy hxy => ?_⟩, fun x hx => ?_⟩
    · rw [List.mem_singleton] at hy
      exact h4 (hy ▸ hxy ▸ hx)
    · rcases List.mem_append.1 hx with hx | hx
      · exact h2 x hx
      · rw [List.mem_singleton.1 hx]; exact h3
  cases ph with
  | joined => cases a <;> simp [KCPhase.next, KCPhase.Sane]
  | complete => trivial
  | backups made =>
    simp only [KCPhase.next]
    split
    · split
      · simp [KCPhase.Sane]
      · exact h
    · split
      · rename_i hc
        exact add made h.1 h.2 hc.1 hc.2
      · exact h
  | verifying done =>
    simp only [KCPhase.next]
    split
    · split
      · trivial
      · exact h
    · split
      · rename_i hc
        exact add done h.1 h.2 hc.1 hc.2.1
      · exact h

theorem KCPhase.next_announced (ids : List String) (u : String) (a : Bool) (ph : KCPhase) (h : ph.Announced) :
    (ph.next ids u a).Announced := by
  cases ph <;> first | cases h; done | (simp only [KCPhase.next]; (repeat' split) <;> trivial)

theorem KCPhase.next_made (ids : List String) (u : String) (a : Bool) (x : String) (ph : KCPhase) (h : ph.Made x) :
    (ph.next ids u a).Made x := by
  cases ph with
  | joined => cases h
  | backups made =>
    simp only [KCPhase.next]
    repeat' split
    · trivial
    · exact h
    · exact List.mem_append_left _ h
    · exact h
  | verifying done => simp only [KCPhase.next]; (repeat' split) <;> trivial
  | complete => trivial

theorem KCPhase.next_shared (ids : List String) (u : String) (a : Bool) (ph : KCPhase) (h : ph.Shared) :
    (ph.next ids u a).Shared := by
  cases ph <;> first | cases h; done | (simp only [KCPhase.next]; (repeat' split) <;> trivial)

theorem KCPhase.next_checked (ids : List String) (u : String) (a : Bool) (x : String) (ph : KCPhase) (h : ph.Checked ids x) :
    (ph.next ids u a).Checked ids x := by
  cases ph with
  | joined => cases h
  | backups made => cases h
  | verifying done =>
    simp only [KCPhase.next]
    repeat' split
    · trivial
    · exact h
    · rcases h with h | h
      · exact .inl (List.mem_append_left _ h)
      · exact .inr h
    · exact h
  | complete => trivial

/-- The phase after some browsers have looked. -/
def KCPhase.after (ids : List String) (l : List (String × Bool × (Nat → Nat))) (ph : KCPhase) : KCPhase :=
  l.foldl (fun ph e => ph.next ids e.1 e.2.1) ph

theorem KCPhase.after_keeps {ids : List String} {Q : KCPhase → Prop}
    (hQ : ∀ u a ph, Q ph → Q (KCPhase.next ids u a ph)) (l : List (String × Bool × (Nat → Nat))) (ph : KCPhase) (h : Q ph) :
    Q (ph.after ids l) := by
  induction l generalizing ph with
  | nil => exact h
  | cons e l ih => exact ih _ (hQ _ _ _ h)

/-- When the administrator looks three times and in between everybody looks, the ceremony comes to its end. -/
theorem KCPhase.after_complete {ids : List String} (hne : ids ≠ []) (hnd : ids.Nodup) {adm1 adm2 adm3 : String} {n1 n2 n3 : Nat → Nat}
    {a b c d : List (String × Bool × (Nat → Nat))} (hb : EveryoneLooks ids b) (hc : EveryoneLooks ids c) :
    KCPhase.joined.after ids (a ++ (adm1, true, n1) :: b ++ (adm2, true, n2) :: c ++ (adm3, true, n3) :: d) = .complete := by
  -- a and the administrator
  set p1 := (KCPhase.joined.after ids a).next ids adm1 true with hp1
  have s1 : p1.Sane ids := next_sane _ _ _ _ (after_keeps (next_sane ids) _ _ trivial)
  have q1 : p1.Announced := by
    rw [hp1]
    cases h : KCPhase.joined.after ids a with
    | joined => simp [KCPhase.next, KCPhase.Announced]
    | _ => exact next_announced _ _ _ _ trivial
  -- everybody makes backups
  set p2 := p1.after ids b with hp2
  have s2 : p2.Sane ids := after_keeps (next_sane ids) _ _ s1
  have q2 : ∀ x ∈ ids, p2.Made x := by
    intro x hx
    obtain ⟨n, hn⟩ := hb x hx
    obtain ⟨b1, b2, rfl⟩ := List.append_of_mem hn
    have hb1 : (p1.after ids b1).Announced := after_keeps (next_announced ids) _ _ q1
    have : ((p1.after ids b1).next ids x false).Made x := by
      cases h : p1.after ids b1 with
      | joined => rw [h] at hb1; cases hb1
      | backups made =>
        by_cases hm : x ∈ made <;> simp [KCPhase.next, hm, hx, KCPhase.Made]
      | verifying done => exact next_made _ _ _ _ _ trivial
      | complete => trivial
    rw [hp2, KCPhase.after, List.foldl_append, List.foldl_cons]
    exact after_keeps (fun u a => next_made ids u a x) b2 _ this
  -- the administrator shares them
  set p3 := p2.next ids adm2 true with hp3
  have s3 : p3.Sane ids := next_sane _ _ _ _ s2
  have q3 : p3.Shared := by
    obtain ⟨x, hx⟩ := List.exists_mem_of_ne_nil _ hne
    cases h : p2 with
    | joined => have := q2 x hx; rw [h] at this; cases this
    | backups made =>
      rw [h] at s2 q2
      have hlen : ids.length = made.length :=
        (List.perm_of_nodup_nodup_toFinset_eq hnd s2.1 (by
          ext x
          rw [List.mem_toFinset, List.mem_toFinset]
          exact ⟨q2 x, s2.2 x⟩)).length_eq
      rw [hp3, h]
      simp [KCPhase.next, hlen, KCPhase.Shared]
    | verifying done => rw [hp3, h]; exact next_shared _ _ _ _ trivial
    | complete => rw [hp3, h]; trivial
  -- everybody checks its backups
  set p4 := p3.after ids c with hp4
  have s4 : p4.Sane ids := after_keeps (next_sane ids) _ _ s3
  have q4 : ∀ x ∈ ids, p4.Checked ids x := by
    intro x hx
    obtain ⟨n, hn⟩ := hc x hx
    obtain ⟨b1, b2, rfl⟩ := List.append_of_mem hn
    have hb1 : (p3.after ids b1).Shared := after_keeps (next_shared ids) _ _ q3
    have : ((p3.after ids b1).next ids x false).Checked ids x := by
      cases h : p3.after ids b1 with
      | joined => rw [h] at hb1; cases hb1
      | backups made => rw [h] at hb1; cases hb1
      | verifying done =>
        by_cases hm : x ∈ done <;> by_cases h1 : ids.length = 1 <;> simp [KCPhase.next, hm, hx, KCPhase.Checked, h1]
      | complete => trivial
    rw [hp4, KCPhase.after, List.foldl_append, List.foldl_cons]
    exact after_keeps (fun u a => next_checked ids u a x) b2 _ this
  -- the administrator publishes the joint key
  have q5 : p4.next ids adm3 true = .complete := by
    obtain ⟨x, hx⟩ := List.exists_mem_of_ne_nil _ hne
    cases h : p4 with
    | joined => have := q4 x hx; rw [h] at this; cases this
    | backups made => have := q4 x hx; rw [h] at this; cases this
    | verifying done =>
      rw [h] at s4 q4
      have hlen : ids.length = done.length ∨ ids.length = 1 := by
        by_cases h1 : ids.length = 1
        · exact .inr h1
        · refine .inl (List.perm_of_nodup_nodup_toFinset_eq hnd s4.1 ?_).length_eq
          ext x
          rw [List.mem_toFinset, List.mem_toFinset]
          exact ⟨fun hx => (q4 x hx).resolve_right h1, s4.2 x⟩
      simp [KCPhase.next, hlen]
    | complete => rfl
  have q6 : (p4.next ids adm3 true).after ids d = .complete :=
    after_keeps (Q := fun ph => ph = .complete) (fun u a ph h => by rw [h]; rfl) _ _ q5
  rw [← q6]
  simp only [KCPhase.after, List.foldl_append, List.foldl_cons, hp4, hp3, hp2, hp1]

/-! ### The browsers -/

theorem compute_updates {st : KCStage} {d : KCDoc} {user : String} {file : Option PrivateGuardianRecord} {nonces : Nat → Nat}
    {us : List KCUpdate} (h : st.compute E loads d user file nonces = .ok us) : (∃ u, us = [u]) ∨ ∃ u u', us = [u, u'] := by
  cases st <;> simp only [KCStage.compute, bind, Except.bind, pure, Except.pure] at h <;> split at h <;> cases h
  all_goals first | exact .inl ⟨_, rfl⟩ | exact .inr ⟨_, _, rfl⟩

theorem event_step_none (d : KCDoc) (files : List (String × PrivateGuardianRecord)) (rands : Nat → Nat × Nat)
    (nonces : Nat → Nat) : (KCSystem.mk d files []).event E loads (.step 0 rands nonces) = ⟨d, files, []⟩ := rfl

theorem event_step_one (d : KCDoc) (files : List (String × PrivateGuardianRecord)) (p : KCProc) (rands : Nat → Nat × Nat)
    (nonces : Nat → Nat) : (KCSystem.mk d files [p]).event E loads (.step 0 rands nonces)
      = ⟨(p.advance E loads d files rands nonces).1, (p.advance E loads d files rands nonces).2.1,
        (p.advance E loads d files rands nonces).2.2.toList⟩ := rfl

/-- A browser that is not disturbed does what `onChanged` does. -/
theorem whole_run (d : KCDoc) (files : List (String × PrivateGuardianRecord)) (e : String × Bool × (Nat → Nat)) :
    (KCSystem.mk d files []).run E loads (KCEvent.whole e)
      = ⟨(KCWorld.onChanged E loads ⟨d, files⟩ e.1 e.2.1 e.2.2).2.doc, files, []⟩ := by
  obtain ⟨user, isAdmin, nonces⟩ := e
  unfold KCSystem.run KCEvent.whole KCWorld.onChanged
  simp only [List.replicate, List.foldl_cons, List.foldl_nil]
  cases hst : d.stage user isAdmin with
  | none =>
    have h0 : (KCSystem.mk d files []).event E loads (.poll user isAdmin) = ⟨d, files, []⟩ := by
      simp only [KCSystem.event, hst]
    rw [h0]
    simp only [event_step_none]
  | some st =>
    have h0 : (KCSystem.mk d files []).event E loads (.poll user isAdmin) = ⟨d, files, [.running user st d]⟩ := by
      simp only [KCSystem.event, hst, List.nil_append]
    rw [h0, event_step_one]
    cases hc : st.compute E loads d user (dget files user) nonces with
    | error e =>
      simp only [KCProc.advance, hc, Option.toList, event_step_none]
    | ok us =>
      simp only [KCProc.advance, hc, Option.toList]
      rcases compute_updates hc with ⟨u, rfl⟩ | ⟨u, u', rfl⟩
      · rw [event_step_one]
        simp only [KCProc.advance, Option.toList]
        rw [event_step_one]
        simp only [KCProc.advance, Option.toList, event_step_none, List.foldl_cons, List.foldl_nil]
      · rw [event_step_one]
        simp only [KCProc.advance, Option.toList]
        rw [event_step_one]
        simp only [KCProc.advance, Option.toList]
        rw [event_step_one]
        simp only [KCProc.advance, Option.toList, List.foldl_cons, List.foldl_nil]

theorem phases_run (hv : E.P.Valid) (hlen : HmacLen E) (hl : ReadsCoordinate loads) (hq : E.P.q ≤ 256 ^ 246)
    {quorum : Nat} {rands : String → List (Nat × Nat)} {kps : List ElectionKeyPair} (ht : Team E quorum rands kps)
    (hne : kps ≠ []) (l : List (String × Bool × (Nat → Nat))) {d : KCDoc} {files : List (String × PrivateGuardianRecord)}
    {ph : KCPhase} (h : AtPhase E kps d files ph) :
    ∃ d', (KCSystem.mk d files []).run E loads (l.flatMap KCEvent.whole) = ⟨d', files, []⟩ ∧
      AtPhase E kps d' files (ph.after (kps.map (fun kp => kp.ownerId)) l) := by
  induction l generalizing d ph with
  | nil => exact ⟨d, rfl, h⟩
  | cons e l ih =>
    obtain ⟨d', h1, h2⟩ := ih (phase_step hv hlen hl hq ht hne h e.1 e.2.1 e.2.2)
    refine ⟨d', ?_, h2⟩
    rw [← h1, List.flatMap_cons]
    unfold KCSystem.run
    rw [List.foldl_append]
    congr 1
    exact whole_run d files e

end EG
