import Verif.Model.GuiDecryption
import Verif.Model.GuiKeyCeremony
import Verif.Spec.ToyElection
import Mathlib.Data.List.Induction

/-!
# C70, C71: who is offered to join
-/

namespace EG

variable {E : Env} {loads : Bytes → R (List Char)}

/-! ### The key ceremony -/

/-- The users that started to join, in their order. -/
def joiners (evs : List KCEvent) : List String :=
  evs.filterMap (fun ev => match ev with
    | .join user => some user
    | _ => none)

/-- A call under way that does not append to the users that joined. -/
def KCProc.NoJoin : KCProc → Prop
  | .writing us => ∀ u ∈ us, ∀ id, u ≠ .joined id
  | _ => True

theorem compute_noJoin {d : KCDoc} {user : String} {file : Option PrivateGuardianRecord} {nonces : Nat → Nat} {st : KCStage}
    {us : List KCUpdate} (h : st.compute E loads d user file nonces = .ok us) : ∀ u ∈ us, ∀ id, u ≠ .joined id := by
  have one : ∀ {α : Type} {x : R α} {f : α → List KCUpdate}, (∀ a, ∀ u ∈ f a, ∀ id, u ≠ .joined id) →
      (x >>= fun a => pure (f a)) = .ok us → ∀ u ∈ us, ∀ id, u ≠ .joined id := by
    intro α x f hf hx
    cases x with
    | error e => cases hx
    | ok a =>
      cases hx
      exact hf a
  cases st <;> refine one ?_ h <;> intro a u hu id <;> simp only [List.mem_cons, List.not_mem_nil, or_false] at hu <;>
    rcases hu with rfl | rfl <;> simp

theorem advance_joined {d : KCDoc} {files : List (String × PrivateGuardianRecord)} {rands : Nat → Nat × Nat} {nonces : Nat → Nat}
    {p : KCProc} (hp : p.NoJoin) : (p.advance E loads d files rands nonces).1.joined = d.joined ∧
      ∀ p' ∈ (p.advance E loads d files rands nonces).2.2, p'.NoJoin := by
  cases p with
  | joining user =>
    simp only [KCProc.advance]
    split <;> refine ⟨rfl, fun p' hp' => ?_⟩ <;> cases hp'
    trivial
  | numbered user number n quorum =>
    simp only [KCProc.advance]
    split <;> refine ⟨rfl, fun p' hp' => ?_⟩ <;> cases hp'
    trivial
  | saved key => exact ⟨rfl, by simp [KCProc.advance]⟩
  | running user stage read =>
    simp only [KCProc.advance]
    split
    · exact ⟨rfl, by simp⟩
    · next us h =>
      refine ⟨rfl, fun p' hp' => ?_⟩
      cases hp'
      exact compute_noJoin h
  | writing us =>
    cases us with
    | nil => exact ⟨rfl, by simp [KCProc.advance]⟩
    | cons u us =>
      refine ⟨?_, fun p' hp' => ?_⟩
      · have := hp u List.mem_cons_self
        cases u with
        | joined id => exact absurd rfl (this id)
        | _ => rfl
      · cases hp'
        exact fun v hv => hp v (List.mem_cons_of_mem _ hv)

theorem run_joiners (n quorum : Int) (evs : List KCEvent) :
    ((KCSystem.init n quorum).run E loads evs).doc.joined = joiners evs ∧
    ∀ p ∈ ((KCSystem.init n quorum).run E loads evs).procs, p.NoJoin := by
  induction evs using List.reverseRecOn with
  | nil => exact ⟨rfl, fun p hp => (by cases hp)⟩
  | append_singleton evs ev ih =>
    have hrun : (KCSystem.init n quorum).run E loads (evs ++ [ev])
        = ((KCSystem.init n quorum).run E loads evs).event E loads ev := by
      unfold KCSystem.run
      rw [List.foldl_append]
      rfl
    rw [hrun]
    generalize (KCSystem.init n quorum).run E loads evs = s at ih
    obtain ⟨h1, h2⟩ := ih
    unfold joiners at h1 ⊢
    rw [List.filterMap_append, ← h1]
    cases ev with
    | join user =>
      refine ⟨rfl, fun p hp => ?_⟩
      rcases List.mem_append.1 hp with hp | hp
      · exact h2 p hp
      · cases List.mem_singleton.1 hp
        trivial
    | poll user isAdmin =>
      simp only [List.filterMap_cons, List.filterMap_nil, List.append_nil, KCSystem.event]
      split
      · exact ⟨rfl, h2⟩
      · refine ⟨rfl, fun p hp => ?_⟩
        rcases List.mem_append.1 hp with hp | hp
        · exact h2 p hp
        · cases List.mem_singleton.1 hp
          trivial
    | step i rands nonces =>
      simp only [List.filterMap_cons, List.filterMap_nil, List.append_nil, KCSystem.event]
      split
      · exact ⟨rfl, h2⟩
      · next p hp =>
        obtain ⟨g1, g2⟩ := advance_joined (E := E) (loads := loads) (d := s.doc) (files := s.files) (rands := rands)
          (nonces := nonces) (h2 p (List.mem_of_getElem? hp))
        refine ⟨g1, fun p' hp' => ?_⟩
        rcases List.mem_append.1 hp' with hp' | hp'
        · exact h2 p' (List.mem_of_mem_eraseIdx hp')
        · exact g2 p' (by simpa using hp')

/-- C71 A user is offered to join a key ceremony if they are not an administrator and have not started to join it before; whatever
happens in between, once they have they are not offered it again. -/
theorem C71_join_offered (n quorum : Int) (evs : List KCEvent) (user : String) (isAdmin : Bool) :
    ((KCSystem.init n quorum).run E loads evs).doc.canJoin user isAdmin = true ↔
      isAdmin = false ∧ ∀ ev ∈ evs, ev ≠ .join user := by
  have hmem : user ∈ joiners evs ↔ .join user ∈ evs := by
    unfold joiners
    rw [List.mem_filterMap]
    constructor
    · rintro ⟨ev, hev, he⟩
      cases ev with
      | join u =>
        cases he
        exact hev
      | _ => cases he
    · exact fun h => ⟨_, h, rfl⟩
  unfold KCDoc.canJoin
  rw [(run_joiners n quorum evs).1]
  simp only [Bool.and_eq_true, Bool.not_eq_true', decide_eq_false_iff_not, hmem]
  exact ⟨fun ⟨h1, h2⟩ => ⟨h2, fun ev hev he => h1 (he ▸ hev)⟩, fun ⟨h1, h2⟩ => ⟨fun h => h2 _ h rfl, h1⟩⟩

/-- C71 If users join only when they are offered to, nobody joins twice. -/
theorem C71_offered_once (n quorum : Int) (evs : List KCEvent)
    (h : ∀ pre user post, evs = pre ++ .join user :: post →
      ((KCSystem.init n quorum).run E loads pre).doc.canJoin user false = true) :
    ((KCSystem.init n quorum).run E loads evs).doc.joined.Nodup := by
  rw [(run_joiners n quorum evs).1]
  induction evs using List.reverseRecOn with
  | nil => exact List.nodup_nil
  | append_singleton evs ev ih =>
    have ih := ih (fun pre user post he => h pre user (post ++ [ev]) (by rw [he]; simp))
    unfold joiners at ih ⊢
    rw [List.filterMap_append]
    cases ev with
    | join user =>
      have hu := (C71_join_offered n quorum evs user false).1 (h evs user [] rfl)
      refine List.nodup_append.2 ⟨ih, by simp, ?_⟩
      intro a ha b hb hab
      simp only [List.filterMap_cons, List.filterMap_nil, List.mem_singleton] at hb
      subst hab
      subst hb
      obtain ⟨ev, hev, he⟩ := List.mem_filterMap.1 ha
      cases ev with
      | join u =>
        cases he
        exact hu.2 _ hev rfl
      | _ => cases he
    | _ => simpa using ih

/-! ### The decryption -/

variable {maxE : Nat} {parse : List Char → Option SBallot} {guardianOf : String → Option Guardian}

/-- An event that appends to the guardians that joined appends the one whose shares it goes with; the others append none. -/
theorem step_joined (w : GuiWorld) (ev : GuiEvent) :
    (w.step E maxE parse guardianOf ev).dec.joined = w.dec.joined ++
      match ev with
      | .joinId i => ((w.made[i]?).map (fun r => r.1.guardianId)).toList
      | _ => [] := by
  cases ev with
  | upload => simp [GuiWorld.step]
  | createUpload => simp [GuiWorld.step]
  | joinCompute user net seeds =>
    simp only [GuiWorld.step, List.append_nil]
    split <;> rfl
  | joinShare i =>
    simp only [GuiWorld.step, List.append_nil]
    split <;> rfl
  | joinId i =>
    simp only [GuiWorld.step]
    split
    · next h => simp [h]
    · next r h => simp [h, GuiDecryption.pushJoined]
  | adminRead => simp [GuiWorld.step]
  | adminCompute i net =>
    simp only [GuiWorld.step, List.append_nil]
    split
    · rfl
    · split
      · split <;> rfl
      · rfl
  | complete i =>
    simp only [GuiWorld.step, List.append_nil]
    split <;> rfl

/-- C70 A user is offered to join a decryption if they are not an administrator and no join of theirs was recorded; whatever happens
in between, once it was they are not offered it again. -/
theorem C70_join_offered (db : GuiDb) (eid : String) (n : Int) (evs : List GuiEvent) (user : String) (isAdmin : Bool) :
    ((GuiWorld.start db eid n).run E maxE parse guardianOf evs).dec.canJoin user isAdmin = true ↔
      isAdmin = false ∧ ∀ pre i post r, evs = pre ++ .joinId i :: post →
        ((GuiWorld.start db eid n).run E maxE parse guardianOf pre).made[i]? = some r → r.1.guardianId ≠ user := by
  have key : user ∈ ((GuiWorld.start db eid n).run E maxE parse guardianOf evs).dec.joined ↔
      ∃ pre i post r, evs = pre ++ .joinId i :: post ∧
        ((GuiWorld.start db eid n).run E maxE parse guardianOf pre).made[i]? = some r ∧ r.1.guardianId = user := by
    induction evs using List.reverseRecOn with
    | nil =>
      constructor
      · intro h
        cases h
      · rintro ⟨pre, i, post, r, h, -⟩
        cases pre <;> cases h
    | append_singleton evs ev ih =>
      have hrun : (GuiWorld.start db eid n).run E maxE parse guardianOf (evs ++ [ev])
          = ((GuiWorld.start db eid n).run E maxE parse guardianOf evs).step E maxE parse guardianOf ev := by
        unfold GuiWorld.run
        rw [List.foldl_append]
        rfl
      rw [hrun, step_joined, List.mem_append, ih]
      constructor
      · rintro (⟨pre, i, post, r, h1, h2⟩ | h)
        · exact ⟨pre, i, post ++ [ev], r, by rw [h1]; simp, h2⟩
        · cases ev with
          | joinId i =>
            simp only [Option.mem_toList, Option.map_eq_some_iff] at h
            obtain ⟨r, h1, h2⟩ := h
            exact ⟨evs, i, [], r, rfl, h1, h2⟩
          | _ => cases h
      · rintro ⟨pre, i, post, r, h1, h2, h3⟩
        rcases List.eq_nil_or_concat post with rfl | ⟨post, ev', rfl⟩
        · obtain ⟨e1, e2⟩ := List.append_inj' h1 rfl
          subst e1
          cases e2
          refine Or.inr ?_
          simp [h2, h3]
        · have h1' : evs ++ [ev] = (pre ++ .joinId i :: post) ++ [ev'] := by rw [h1]; simp
          obtain ⟨e1, e2⟩ := List.append_inj' h1' rfl
          exact Or.inl ⟨pre, i, post, r, e1, h2, h3⟩
  unfold GuiDecryption.canJoin
  simp only [Bool.and_eq_true, Bool.not_eq_true', decide_eq_false_iff_not, key]
  constructor
  · exact fun ⟨h1, h2⟩ => ⟨h2, fun pre i post r e1 e2 e3 => h1 ⟨pre, i, post, r, e1, e2, e3⟩⟩
  · exact fun ⟨h1, h2⟩ => ⟨fun ⟨pre, i, post, r, e1, e2, e3⟩ => h2 pre i post r e1 e2 e3, h1⟩

/-- How far a decryption is. -/
def GuiStatus.rank : GuiStatus → Nat
  | .waiting => 0
  | .performing => 1
  | .complete => 2

/-- C70 The status of a decryption never goes back: it waits until as many guardians joined as the election has, is then performed until
there is a result, and is complete from then on. -/
theorem C70_status_forward (db : GuiDb) (eid : String) (n : Int) (evs evs' : List GuiEvent) (w w' : GuiWorld)
    (hw : w = (GuiWorld.start db eid n).run E maxE parse guardianOf evs) (hw' : w' = w.run E maxE parse guardianOf evs') :
    w.dec.status.rank ≤ w'.dec.status.rank ∧
    (w.dec.status = .waiting ↔ (w.dec.joined.length : Int) < n) ∧
    (w.dec.status = .complete ↔ n ≤ w.dec.joined.length ∧ w.dec.completed.isSome) := by
  have hstep : ∀ (w : GuiWorld) ev, (w.step E maxE parse guardianOf ev).dec.guardians = w.dec.guardians ∧
      w.dec.joined.length ≤ (w.step E maxE parse guardianOf ev).dec.joined.length ∧
      (w.dec.completed.isSome → (w.step E maxE parse guardianOf ev).dec.completed.isSome) := by
    intro w ev
    refine ⟨?_, by rw [step_joined, List.length_append]; omega, ?_⟩
    all_goals cases ev <;> simp only [GuiWorld.step]
    all_goals repeat' split
    all_goals first
      | rfl
      | exact fun h => h
      | exact fun _ => rfl
  have hrun : ∀ (evs : List GuiEvent) (w : GuiWorld), (w.run E maxE parse guardianOf evs).dec.guardians = w.dec.guardians ∧
      w.dec.joined.length ≤ (w.run E maxE parse guardianOf evs).dec.joined.length ∧
      (w.dec.completed.isSome → (w.run E maxE parse guardianOf evs).dec.completed.isSome) := by
    intro evs
    induction evs with
    | nil => exact fun w => ⟨rfl, Nat.le_refl _, fun h => h⟩
    | cons ev evs ih =>
      intro w
      obtain ⟨h1, h2, h3⟩ := hstep w ev
      obtain ⟨g1, g2, g3⟩ := ih (w.step E maxE parse guardianOf ev)
      exact ⟨g1.trans h1, Nat.le_trans h2 g2, fun h => g3 (h3 h)⟩
  have hn : w.dec.guardians = n := by rw [hw]; exact (hrun evs _).1
  obtain ⟨h1, h2, h3⟩ := hrun evs' w
  rw [← hw', hn] at h1
  rw [← hw'] at h2 h3
  have hst : ∀ d : GuiDecryption, d.guardians = n → (d.status.rank = if (d.joined.length : Int) < n then 0
      else if d.completed.isSome then 2 else 1) ∧ (d.status = .waiting ↔ (d.joined.length : Int) < n) ∧
      (d.status = .complete ↔ n ≤ d.joined.length ∧ d.completed.isSome) := by
    intro d hd
    unfold GuiDecryption.status
    rw [hd]
    by_cases hlt : (d.joined.length : Int) < n
    · simp only [if_pos hlt]
      exact ⟨rfl, ⟨fun _ => hlt, fun _ => trivial⟩, ⟨fun h => (by cases h), fun h => absurd h.1 (by omega)⟩⟩
    · have : n ≤ d.joined.length := by omega
      cases hc : d.completed <;> simp [hlt, this, GuiStatus.rank]
  obtain ⟨r1, r2, r3⟩ := hst w.dec hn
  refine ⟨?_, r2, r3⟩
  rw [r1, (hst w'.dec h1).1]
  by_cases hlt : (w.dec.joined.length : Int) < n
  · rw [if_pos hlt]
    exact Nat.zero_le _
  · rw [if_neg hlt, if_neg (show ¬ (w'.dec.joined.length : Int) < n by omega)]
    by_cases hc : w.dec.completed.isSome
    · rw [if_pos hc, if_pos (h3 hc)]
    · rw [if_neg hc]
      split <;> omega

/-- Two users: the one that joins is not offered it again, the other one and a stranger are, an administrator never is. -/
example : ((["a", "b", "x"].map (fun u => ((KCSystem.init 2 2).run toyEnv (fun _ => .error .value)
      [.join "a", .poll "b" false, .step 0 (fun _ => (5, 1)) (fun _ => 0)]).doc.canJoin u false)) = [false, true, true]) ∧
    ((KCSystem.init 2 2).run toyEnv (fun _ => .error .value) [.join "a"]).doc.canJoin "b" true = false := by decide +kernel

/-- A decryption of two guardians in its three statuses. -/
example : (GuiDecryption.create "e" 2).status = .waiting ∧ (((GuiDecryption.create "e" 2).pushJoined "a").pushJoined "b").status = .performing ∧
    ((((GuiDecryption.create "e" 2).pushJoined "a").pushJoined "b").setCompleted ⟨⟨"t", []⟩, [], [], ⟨"t", [], [], []⟩⟩).status
      = .complete ∧
    ((GuiDecryption.create "e" 2).pushJoined "a").canJoin "a" false = false ∧
    ((GuiDecryption.create "e" 2).pushJoined "a").canJoin "b" false = true := by decide +kernel

end EG
