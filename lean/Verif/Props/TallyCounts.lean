import Verif.Spec.TallyCounts
import Verif.Props.Batch
import Verif.Props.Verify
import Mathlib.Data.List.Dedup

/-!
# C119: the numbers of cast and spoiled ballots
-/

namespace EG

variable {E : Env}

theorem append_sets (m : InternalManifest) (ctx : Context) (up : Bool) (t : Tally) (b : SBallot) (validate : Bool) :
    ((t.append E m ctx up b validate).1 ≠ .ok true ∧ (t.append E m ctx up b validate).2.castIds = t.castIds ∧
      (t.append E m ctx up b validate).2.spoiledIds = t.spoiledIds) ∨
    ((t.append E m ctx up b validate).1 = .ok true ∧ b.objectId ∉ t.castIds ∧ b.objectId ∉ t.spoiledIds ∧
      ((b.state = .cast ∧ (t.append E m ctx up b validate).2.castIds = t.castIds ++ [b.objectId] ∧
          (t.append E m ctx up b validate).2.spoiledIds = t.spoiledIds) ∨
       (b.state = .spoiled ∧ (t.append E m ctx up b validate).2 = { t with spoiledIds := t.spoiledIds ++ [b.objectId] }))) := by
  by_cases h : (t.append E m ctx up b validate).1 = .ok true
  · right
    refine ⟨h, ?_⟩
    unfold Tally.append at h ⊢
    by_cases hu : b.state = .unknown
    · rw [if_pos hu] at h; simp at h
    · rw [if_neg hu] at h ⊢
      cases hc : t.contains b with
      | true => rw [hc] at h; simp at h
      | false =>
        have hmem : b.objectId ∉ t.castIds ∧ b.objectId ∉ t.spoiledIds := by simpa [Tally.contains, not_or] using hc
        rw [hc] at h
        simp only [Bool.false_eq_true, if_false] at h ⊢
        refine ⟨hmem.1, hmem.2, ?_⟩
        cases hv : ballotIsValidForElection E b.toCBallot m ctx validate with
        | error e => rw [hv] at h; simp at h
        | ok r =>
          cases r with
          | false => rw [hv] at h; simp at h
          | true =>
            rw [hv] at h
            cases hs : b.state with
            | unknown => exact absurd hs hu
            | spoiled => right; simp [addSpoiled, setAdd, hmem.2]
            | cast =>
              left
              simp only [hs, addCast] at h ⊢
              split at h
              · rename_i h1
                simp [h1, setAdd, hmem.1]
              · simp at h
  · exact Or.inl ⟨h, C38_sets_unchanged E m ctx up t b validate h⟩

/-- C119 After any sequence of appends, `cast()` has grown by the number of cast ballots that were accepted and `spoiled()` by that of spoiled ones; together
they are the number of different ballots that were accepted. -/
theorem C119_appends (m : InternalManifest) (ctx : Context) (t : Tally) (as : List AppendCall) :
    let t' := TallyCall.run E m ctx t (as.map AppendCall.call)
    let ok := acceptedBy E m ctx t as
    t'.castCount = t.castCount + (castOf ok).length ∧ t'.spoiledCount = t.spoiledCount + (spoiledBallotsOf ok).length ∧
    ok.length = (castOf ok).length + (spoiledBallotsOf ok).length ∧ (ok.map (fun b => b.objectId)).Nodup ∧
    ∀ b ∈ ok, b.objectId ∉ t.castIds ∧ b.objectId ∉ t.spoiledIds := by
  induction as generalizing t with
  | nil => simp [TallyCall.run, acceptedBy, castOf, spoiledBallotsOf]
  | cons a as ih =>
    obtain ⟨i1, i2, i3, i4, i5⟩ := ih (t.append E m ctx a.up a.ballot a.validate).2
    simp only [List.map_cons, TallyCall.run, AppendCall.call, TallyCall.step, acceptedBy] at i1 i2 i3 i4 i5 ⊢
    rcases append_sets (E := E) m ctx a.up t a.ballot a.validate with ⟨h1, h2, h3⟩ | ⟨h1, h2, h3, ⟨hs, h4, h5⟩ | ⟨hs, h4⟩⟩
    · rw [if_neg h1, List.nil_append]
      rw [h2, h3] at i5
      refine ⟨?_, ?_, i3, i4, i5⟩
      · rw [i1, Tally.castCount, h2]; rfl
      · rw [i2, Tally.spoiledCount, h3]; rfl
    · rw [if_pos h1, List.singleton_append]
      rw [h4, h5] at i5
      have e1 : castOf (a.ballot :: acceptedBy E m ctx (t.append E m ctx a.up a.ballot a.validate).2 as)
          = a.ballot :: castOf (acceptedBy E m ctx (t.append E m ctx a.up a.ballot a.validate).2 as) := by simp [castOf, hs]
      have e2 : spoiledBallotsOf (a.ballot :: acceptedBy E m ctx (t.append E m ctx a.up a.ballot a.validate).2 as)
          = spoiledBallotsOf (acceptedBy E m ctx (t.append E m ctx a.up a.ballot a.validate).2 as) := by simp [spoiledBallotsOf, hs]
      rw [e1, e2]
      refine ⟨?_, ?_, ?_, ?_, ?_⟩
      · rw [i1]
        simp only [Tally.castCount, h4, List.length_append, List.length_cons, List.length_nil]
        omega
      · rw [i2]
        simp only [Tally.spoiledCount, h5]
      · simp only [List.length_cons]
        omega
      · rw [List.map_cons, List.nodup_cons]
        refine ⟨fun hm => ?_, i4⟩
        obtain ⟨x, hx, he⟩ := List.mem_map.1 hm
        exact (i5 x hx).1 (by rw [he]; simp)
      · intro b hb
        rcases List.mem_cons.1 hb with rfl | hb
        · exact ⟨h2, h3⟩
        · have := i5 b hb
          exact ⟨fun hh => this.1 (by simp [hh]), this.2⟩
    · rw [if_pos h1, List.singleton_append]
      have e1 : castOf (a.ballot :: acceptedBy E m ctx (t.append E m ctx a.up a.ballot a.validate).2 as)
          = castOf (acceptedBy E m ctx (t.append E m ctx a.up a.ballot a.validate).2 as) := by simp [castOf, hs]
      have e2 : spoiledBallotsOf (a.ballot :: acceptedBy E m ctx (t.append E m ctx a.up a.ballot a.validate).2 as)
          = a.ballot :: spoiledBallotsOf (acceptedBy E m ctx (t.append E m ctx a.up a.ballot a.validate).2 as) := by simp [spoiledBallotsOf, hs]
      rw [e1, e2]
      rw [h4] at i1 i2 i3 i4 i5 ⊢
      refine ⟨i1, ?_, ?_, ?_, ?_⟩
      · rw [i2]
        simp only [Tally.spoiledCount, List.length_append, List.length_cons, List.length_nil]
        omega
      · simp only [List.length_cons]
        omega
      · rw [List.map_cons, List.nodup_cons]
        refine ⟨fun hm => ?_, i4⟩
        obtain ⟨x, hx, he⟩ := List.mem_map.1 hm
        exact (i5 x hx).2 (by rw [he]; simp)
      · intro b hb
        rcases List.mem_cons.1 hb with rfl | hb
        · exact ⟨h2, h3⟩
        · have := i5 b hb
          exact ⟨this.1, fun hh => this.2 (by simp [hh])⟩

/-- C119 In particular a new tally counts exactly the accepted ballots. -/
theorem C119_new (m : InternalManifest) (ctx : Context) (id : String) (as : List AppendCall) :
    let t' := TallyCall.run E m ctx (newTally E id m) (as.map AppendCall.call)
    let ok := acceptedBy E m ctx (newTally E id m) as
    t'.castCount = (castOf ok).length ∧ t'.spoiledCount = (spoiledBallotsOf ok).length ∧ t'.castCount + t'.spoiledCount = ok.length := by
  obtain ⟨h1, h2, h3, -⟩ := C119_appends (E := E) m ctx (newTally E id m) as
  have e1 : (newTally E id m).castCount = 0 := rfl
  have e2 : (newTally E id m).spoiledCount = 0 := rfl
  rw [e1] at h1
  rw [e2] at h2
  refine ⟨by omega, by omega, by omega⟩

/-! ### Batches -/

/-- The sets only grow, and hold no id twice. -/
theorem setAdd_grows (s : List String) (x : String) : s <+: setAdd s x := by
  unfold setAdd
  split
  · exact List.prefix_refl _
  · exact List.prefix_append _ _

theorem recordCast_grows (bs : List SBallot) (s : List String) : s <+: recordCast bs s := by
  induction bs generalizing s with
  | nil => exact List.prefix_refl _
  | cons b bs ih =>
    unfold recordCast
    refine List.IsPrefix.trans ?_ (ih _)
    split
    · exact setAdd_grows _ _
    · exact List.prefix_refl _

theorem recordCast_nodup (bs : List SBallot) (s : List String) (h : s.Nodup) : (recordCast bs s).Nodup := by
  induction bs generalizing s with
  | nil => exact h
  | cons b bs ih =>
    unfold recordCast
    refine ih _ ?_
    split
    · exact setAdd_nodup h _
    · exact h

theorem batchLoop_sets (m : InternalManifest) (ctx : Context) (validate : Bool) (bs : List SBallot) (t : Tally) (d : BatchDict) :
    (batchLoop E m ctx validate bs t d).2.castIds = t.castIds ∧ t.spoiledIds <+: (batchLoop E m ctx validate bs t d).2.spoiledIds ∧
    (t.spoiledIds.Nodup → (batchLoop E m ctx validate bs t d).2.spoiledIds.Nodup) := by
  induction bs generalizing t d with
  | nil => exact ⟨rfl, List.prefix_refl _, id⟩
  | cons b bs ih =>
    unfold batchLoop
    split
    · exact ⟨rfl, List.prefix_refl _, id⟩
    · exact ih t d
    · split
      · exact ih t _
      · obtain ⟨h1, h2, h3⟩ := ih (addSpoiled t b) d
        exact ⟨h1, (setAdd_grows t.spoiledIds b.objectId).trans h2, fun h => h3 (setAdd_nodup h _)⟩
      · exact ih t d

/-- C119 Neither number ever gets smaller, whatever is appended, one by one or in batches, also if a call raises; and no ballot id is counted twice. -/
theorem C119_grows (m : InternalManifest) (ctx : Context) (t : Tally) (cs : List TallyCall) :
    let t' := TallyCall.run E m ctx t cs
    t.castIds <+: t'.castIds ∧ t.spoiledIds <+: t'.spoiledIds ∧ t.castCount ≤ t'.castCount ∧ t.spoiledCount ≤ t'.spoiledCount ∧
    (t.castIds.Nodup → t'.castIds.Nodup) ∧ (t.spoiledIds.Nodup → t'.spoiledIds.Nodup) := by
  suffices h : t.castIds <+: (TallyCall.run E m ctx t cs).castIds ∧ t.spoiledIds <+: (TallyCall.run E m ctx t cs).spoiledIds ∧
      (t.castIds.Nodup → (TallyCall.run E m ctx t cs).castIds.Nodup) ∧ (t.spoiledIds.Nodup → (TallyCall.run E m ctx t cs).spoiledIds.Nodup) from
    ⟨h.1, h.2.1, h.1.length_le, h.2.1.length_le, h.2.2.1, h.2.2.2⟩
  induction cs generalizing t with
  | nil => exact ⟨List.prefix_refl _, List.prefix_refl _, id, id⟩
  | cons c cs ih =>
    obtain ⟨i1, i2, i3, i4⟩ := ih (c.step E m ctx t).2
    have key : t.castIds <+: (c.step E m ctx t).2.castIds ∧ t.spoiledIds <+: (c.step E m ctx t).2.spoiledIds ∧
        (t.castIds.Nodup → (c.step E m ctx t).2.castIds.Nodup) ∧ (t.spoiledIds.Nodup → (c.step E m ctx t).2.spoiledIds.Nodup) := by
      have hn : ∀ {l : List String} {x : String}, x ∉ l → l.Nodup → (l ++ [x]).Nodup := by
        intro l x hx hl
        rw [List.nodup_append]
        exact ⟨hl, List.nodup_singleton _, fun a ha b hb => by rw [List.mem_singleton.1 hb]; rintro rfl; exact hx ha⟩
      cases c with
      | append up b validate =>
        simp only [TallyCall.step]
        rcases append_sets (E := E) m ctx up t b validate with ⟨-, h2, h3⟩ | ⟨-, h2, h3, ⟨-, h4, h5⟩ | ⟨-, h4⟩⟩
        · rw [h2, h3]; exact ⟨List.prefix_refl _, List.prefix_refl _, id, id⟩
        · rw [h4, h5]; exact ⟨List.prefix_append _ _, List.prefix_refl _, hn h2, id⟩
        · rw [h4]; exact ⟨List.prefix_refl _, List.prefix_append _ _, id, hn h3⟩
      | batch up bs again validate =>
        obtain ⟨h1, h2, h3⟩ := batchLoop_sets (E := E) m ctx validate bs t []
        simp only [TallyCall.step, Tally.batchAppendIter]
        split
        · rename_i e t' he
          rw [he] at h1 h2 h3
          simp only at h1 h2 h3
          rw [h1]
          exact ⟨List.prefix_refl _, h2, id, h3⟩
        · rename_i d t' he
          rw [he] at h1 h2 h3
          simp only at h1 h2 h3 ⊢
          rw [h1]
          exact ⟨recordCast_grows _ _, h2, recordCast_nodup _ _, h3⟩
    exact ⟨key.1.trans i1, key.2.1.trans i2, fun h => i3 (key.2.2.1 h), fun h => i4 (key.2.2.2 h)⟩

/-- C119 After a batch whose validation does not raise, `cast()` is the number of different ids of the ballots counted before and the cast ballots of the batch,
and `spoiled()` that of the ballots spoiled before and the valid spoiled ballots of the batch.
Partial: `cast()` should count the valid ballots only; it does if all cast ballots of the batch are valid (`C119_batch_valid`), and counts invalid ones otherwise
(`C119_invalid_fails`). -/
theorem C119_batch_partial (m : InternalManifest) (ctx : Context) (validate : Bool) (t : Tally) (hc : t.castIds.Nodup) (hs : t.spoiledIds.Nodup)
    (bs : List SBallot) (he : ∀ b ∈ bs, ∃ r, ballotIsValidForElection E b.toCBallot m ctx validate = .ok r) :
    let t' := (t.batchAppend E m ctx true bs validate).2
    t'.castCount = distinctCount (t.castIds ++ (castOf bs).map (fun b => b.objectId)) ∧
    t'.spoiledCount = distinctCount (t.spoiledIds ++ ((spoiledBallotsOf bs).filter (fun b =>
      decide (ballotIsValidForElection E b.toCBallot m ctx validate = .ok true))).map (fun b => b.objectId)) := by
  obtain ⟨-, h1, h2, -⟩ := C37_any E m ctx validate t bs he
  have hn := C119_grows (E := E) m ctx t [.batch true bs bs validate]
  obtain ⟨-, -, -, -, n1, n2⟩ := hn
  have n1 := n1 hc
  have n2 := n2 hs
  simp only [TallyCall.run, TallyCall.step] at n1 n2
  have count : ∀ {l l' : List String}, l.Nodup → (∀ x, x ∈ l ↔ x ∈ l') → l.length = distinctCount l' := by
    intro l l' hl hx
    unfold distinctCount
    apply List.Perm.length_eq
    rw [List.perm_ext_iff_of_nodup hl (List.nodup_dedup _)]
    intro x
    rw [List.mem_dedup]
    exact hx x
  refine ⟨count n1 (fun x => ?_), count n2 (fun x => ?_)⟩
  · have := h1 x
    rw [this, List.mem_append, List.mem_map]
    simp only [castOf, List.mem_filter, decide_eq_true_eq, and_assoc]
  · have := h2 x
    rw [this, List.mem_append, List.mem_map]
    simp only [spoiledBallotsOf, List.mem_filter, decide_eq_true_eq]
    refine or_congr Iff.rfl (exists_congr fun b => ?_)
    tauto

/-- C119 With ids that differ and are new, a batch of valid ballots adds its numbers of cast and of spoiled ballots. -/
theorem C119_batch_valid (m : InternalManifest) (ctx : Context) (validate : Bool) (t : Tally) (hc : t.castIds.Nodup) (hs : t.spoiledIds.Nodup)
    (bs : List SBallot) (hv : ∀ b ∈ bs, ballotIsValidForElection E b.toCBallot m ctx validate = .ok true)
    (hid : (bs.map (fun b => b.objectId)).Nodup) (hnew : ∀ b ∈ bs, t.contains b = false) :
    let t' := (t.batchAppend E m ctx true bs validate).2
    t'.castCount = t.castCount + (castOf bs).length ∧ t'.spoiledCount = t.spoiledCount + (spoiledBallotsOf bs).length := by
  obtain ⟨h1, h2⟩ := C119_batch_partial (E := E) m ctx validate t hc hs bs (fun b hb => ⟨_, hv b hb⟩)
  have hf : (spoiledBallotsOf bs).filter (fun b => decide (ballotIsValidForElection E b.toCBallot m ctx validate = .ok true)) = spoiledBallotsOf bs :=
    List.filter_eq_self.2 (fun b hb => by
      have : b ∈ bs := List.mem_of_mem_filter hb
      simp [hv b this])
  rw [hf] at h2
  have hnew' : ∀ b ∈ bs, b.objectId ∉ t.castIds ∧ b.objectId ∉ t.spoiledIds := by
    intro b hb
    simpa [Tally.contains, not_or] using hnew b hb
  have sub : ∀ p : SBallot → Bool, ((bs.filter p).map (fun b => b.objectId)).Nodup := fun p => hid.sublist (List.Sublist.map _ List.filter_sublist)
  intro t'
  constructor
  · rw [h1, distinctCount, List.dedup_eq_self.2, List.length_append, List.length_map]
    · rfl
    · rw [List.nodup_append]
      refine ⟨hc, sub _, ?_⟩
      intro x hx y hy hxy
      obtain ⟨b, hb, rfl⟩ := List.mem_map.1 hy
      exact (hnew' b (List.mem_of_mem_filter hb)).1 (hxy ▸ hx)
  · rw [h2, distinctCount, List.dedup_eq_self.2, List.length_append, List.length_map]
    · rfl
    · rw [List.nodup_append]
      refine ⟨hs, sub _, ?_⟩
      intro x hx y hy hxy
      obtain ⟨b, hb, rfl⟩ := List.mem_map.1 hy
      exact (hnew' b (List.mem_of_mem_filter hb)).2 (hxy ▸ hx)

/-! ### Votes -/

/-- C119 No selection is reported with more votes than `cast()`, if every ballot gives it at most one. -/
theorem C119_votes (hv : E.P.Valid) (m : InternalManifest) (hm : TallyManifest m) (ctx : Context) (id : String) (validate : Bool) (bs : List SBallot)
    (hb : ∀ b ∈ bs, b.toCBallot.Regular m) (d : ContestWithPlaceholders) (hd : d ∈ m.contests) (sd : SelectionDescription) (hsd : sd ∈ d.ballotSelections)
    (votes : SBallot → Nat) (hone : ∀ b ∈ bs, votes b ≤ 1) (a maxE : Nat)
    (henc : ∀ b ∈ bs, b.state = .cast →
      (∃ ct, contribution b.contests d.objectId sd.objectId = [ct] ∧ Encrypts E.P (E.P.g ^ a % E.P.p) (votes b) ct) ∨
      contribution b.contests d.objectId sd.objectId = [] ∧ votes b = 0) (hq : bs.length < E.P.q) (hmax : bs.length ≤ maxE) :
    let t' := TallyCall.run E m ctx (newTally E id m) (bs.map (fun b => .append true b validate))
    ∃ c n, t'.total d.objectId sd.objectId = some c ∧ c.decrypt E.P maxE a = .ok n ∧ n ≤ t'.castCount := by
  have hrun : ∀ (bs : List SBallot) (t : Tally), TallyCall.run E m ctx t (bs.map (fun b => .append true b validate))
      = (runAppends E m ctx true validate t bs).2 := by
    intro bs
    induction bs with
    | nil => intro t; rfl
    | cons b bs ih => intro t; simp only [List.map_cons, TallyCall.run, TallyCall.step, runAppends]; exact ih _
  have hacc : ∀ (bs : List SBallot) (t : Tally), acceptedBy E m ctx t (bs.map (fun b => ⟨true, b, validate⟩)) = (runAppends E m ctx true validate t bs).1 := by
    intro bs
    induction bs with
    | nil => intro t; rfl
    | cons b bs ih =>
      intro t
      simp only [List.map_cons, acceptedBy, runAppends, ih]
      split <;> rfl
  have hcount : (runAppends E m ctx true validate (newTally E id m) bs).2.castCount
      = (castOf (runAppends E m ctx true validate (newTally E id m) bs).1).length := by
    have := (C119_new (E := E) m ctx id (bs.map (fun b => ⟨true, b, validate⟩))).1
    rw [List.map_map, hacc] at this
    rw [← this, ← hrun]
    rfl
  intro t'
  have ht' : t' = (runAppends E m ctx true validate (newTally E id m) bs).2 := hrun _ _
  obtain ⟨-, hsub, -⟩ := C35_total_partial E hv.one_lt_p m hm ctx id validate bs hb
  have hle : ((castOf (runAppends E m ctx true validate (newTally E id m) bs).1).map votes).sum
      ≤ (castOf (runAppends E m ctx true validate (newTally E id m) bs).1).length := by
    have : ∀ l : List SBallot, (∀ b ∈ l, b ∈ bs) → (l.map votes).sum ≤ l.length := by
      intro l
      induction l with
      | nil => simp
      | cons b l ih =>
        intro h
        have h1 := hone b (h b List.mem_cons_self)
        have h2 := ih (fun x hx => h x (List.mem_cons_of_mem _ hx))
        simp only [List.map_cons, List.sum_cons, List.length_cons]
        omega
    exact this _ (fun b hb => hsub.subset (List.mem_of_mem_filter hb))
  have hlen : (castOf (runAppends E m ctx true validate (newTally E id m) bs).1).length ≤ bs.length :=
    (List.length_filter_le _ _).trans hsub.length_le
  obtain ⟨c, hc, hdec⟩ := C35_decrypts_partial E hv m hm ctx id validate bs hb d hd sd hsd votes a maxE henc (by omega) (by omega)
  refine ⟨c, _, by rw [ht']; exact hc, hdec, ?_⟩
  rw [ht', hcount]
  exact hle

/-! ### Casting and spoiling -/

/-- C119 A ballot made by `cast_ballot` adds one to `cast()` if it is accepted and nothing to `spoiled()`; one made by `spoil_ballot` adds one to `spoiled()` and
leaves `cast()` and all totals as they are; if it is refused, neither number changes. -/
theorem C119_cast_spoil (m : InternalManifest) (ctx : Context) (up : Bool) (t : Tally) (b : CBallot) (validate : Bool) :
    let c := t.append E m ctx up (castBallot E b) validate
    let s := t.append E m ctx up (spoilBallot E b) validate
    (c.1 = .ok true → c.2.castCount = t.castCount + 1 ∧ c.2.spoiledCount = t.spoiledCount) ∧
    (c.1 ≠ .ok true → c.2.castCount = t.castCount ∧ c.2.spoiledCount = t.spoiledCount) ∧
    (s.1 = .ok true → s.2.spoiledCount = t.spoiledCount + 1 ∧ s.2.castCount = t.castCount ∧ s.2.contests = t.contests) ∧
    (s.1 ≠ .ok true → s.2.castCount = t.castCount ∧ s.2.spoiledCount = t.spoiledCount) := by
  have hc : (castBallot E b).state = .cast := rfl
  have hs : (spoilBallot E b).state = .spoiled := rfl
  refine ⟨fun h => ?_, fun h => ?_, fun h => ?_, fun h => ?_⟩
  · rcases append_sets (E := E) m ctx up t (castBallot E b) validate with ⟨h1, -⟩ | ⟨-, -, -, ⟨-, h4, h5⟩ | ⟨h4, -⟩⟩
    · exact absurd h h1
    · simp [Tally.castCount, Tally.spoiledCount, h4, h5]
    · rw [hc] at h4; cases h4
  · obtain ⟨h1, h2⟩ := C38_sets_unchanged E m ctx up t (castBallot E b) validate h
    simp [Tally.castCount, Tally.spoiledCount, h1, h2]
  · rcases append_sets (E := E) m ctx up t (spoilBallot E b) validate with ⟨h1, -⟩ | ⟨-, -, -, ⟨h4, -⟩ | ⟨-, h4⟩⟩
    · exact absurd h h1
    · rw [hs] at h4; cases h4
    · simp [Tally.castCount, Tally.spoiledCount, h4]
  · obtain ⟨h1, h2⟩ := C38_sets_unchanged E m ctx up t (spoilBallot E b) validate h
    simp [Tally.castCount, Tally.spoiledCount, h1, h2]

/-! ### Cases -/

theorem toy_counts :
    let b := toySubmit "b" "t" 1 0 1 0 .cast
    let c := toySubmit "v" "t" 0 1 1 5 .spoiled
    let t := TallyCall.run toyEnv toyIM toyCtx (newTally toyEnv "t" toyIM) [.append true b true, .append true b true, .append true c true]
    t.castCount = 1 ∧ t.spoiledCount = 1 := by decide +kernel

example : let as : List AppendCall := [⟨true, toySubmit "b" "t" 1 0 1 0 .cast, true⟩, ⟨true, toySubmit "b" "t" 1 0 1 0 .cast, true⟩,
      ⟨true, toySubmit "v" "t" 0 1 1 5 .spoiled, true⟩]
    (TallyCall.run toyEnv toyIM toyCtx (newTally toyEnv "t" toyIM) (as.map AppendCall.call)).castCount = 1 ∧
    (TallyCall.run toyEnv toyIM toyCtx (newTally toyEnv "t" toyIM) (as.map AppendCall.call)).spoiledCount = 1 := toy_counts

/-- C119 fails for batches with invalid ballots: a batch of one ballot without contests, which is refused and adds nothing to any total, makes `cast()` 1. -/
theorem C119_invalid_fails : ∃ (E : Env) (m : InternalManifest) (ctx : Context) (b : SBallot), E.P.Valid ∧ b.state = .cast ∧
    ballotIsValidForElection E b.toCBallot m ctx true ≠ .ok true ∧
    ((newTally E "t" m).batchAppend E m ctx true [b] true).2.castCount = 1 ∧
    (TallyCall.run E m ctx (newTally E "t" m) [.append true b true]).castCount = 0 := by
  refine ⟨toyEnv, toyIM, toyCtx, toyEmptied, extraSmall_valid, rfl, ?_⟩
  decide +kernel

end EG
