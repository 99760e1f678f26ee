import Verif.Props.GuiBallots

/-!
# Lemmas about a batch with repeated ballots
-/

namespace EG

variable {E : Env}

/-- tally.py:285-288: one selection is collected. -/
def collectOne (d : BatchDict) (sid bid : String) (ct : Ciphertext) : BatchDict :=
  dset d sid (dset ((dget d sid).getD []) bid ct)

/-- The collected ciphertext. -/
def get2 (d : BatchDict) (sid bid : String) : Option Ciphertext := (dget d sid).bind (fun i => dget i bid)

/-- The dicts have distinct keys. -/
def WFBatch (d : BatchDict) : Prop := (dkeys d).Nodup ∧ ∀ sid i, dget d sid = some i → (dkeys i).Nodup

theorem collectBallot_eq (b : SBallot) (d : BatchDict) :
    collectBallot b d = (b.contests.flatMap (fun c => c.ballotSelections)).foldl
      (fun d s => collectOne d s.objectId b.objectId s.ciphertext) d := by
  unfold collectBallot
  rw [List.foldl_flatMap]
  rfl

theorem dset_same {α : Type} {d : List (String × α)} {k : String} {v : α} (hn : (dkeys d).Nodup) (h : dget d k = some v) :
    dset d k v = d := by
  have hk : d.any (fun e => e.1 == k) = true := by
    obtain ⟨e, he, hek⟩ := List.mem_map.1 ((mem_dkeys_iff d k).2 ⟨v, h⟩)
    exact List.any_eq_true.2 ⟨e, he, by simp [hek]⟩
  unfold dset
  rw [if_pos hk]
  conv_rhs => rw [← List.map_id d]
  refine List.map_congr_left (fun e he => ?_)
  by_cases hek : e.1 = k
  · have := dget_of_mem hn he
    rw [hek, h] at this
    cases this
    rw [if_pos (by simp [hek]), ← hek]
    rfl
  · rw [if_neg (by simp [hek])]
    rfl

theorem get2_collectOne (d : BatchDict) (sid bid : String) (ct : Ciphertext) (sid' bid' : String) :
    get2 (collectOne d sid bid ct) sid' bid' = if sid = sid' ∧ bid = bid' then some ct else get2 d sid' bid' := by
  unfold get2 collectOne
  rw [dget_dset]
  by_cases h1 : sid = sid'
  · subst h1
    rw [if_pos rfl, Option.bind_some, dget_dset]
    by_cases h2 : bid = bid'
    · rw [if_pos h2, if_pos ⟨rfl, h2⟩]
    · rw [if_neg h2, if_neg (fun h => h2 h.2)]
      cases dget d sid with
      | none => rfl
      | some i => rfl
  · rw [if_neg h1, if_neg (fun h => h1 h.1)]

theorem wf_collectOne {d : BatchDict} (h : WFBatch d) (sid bid : String) (ct : Ciphertext) :
    WFBatch (collectOne d sid bid ct) := by
  refine ⟨dset_nodup h.1 _ _, fun k i hi => ?_⟩
  unfold collectOne at hi
  rw [dget_dset] at hi
  split at hi
  · cases hi
    refine dset_nodup ?_ _ _
    cases hd : dget d sid with
    | none => exact List.nodup_nil
    | some i => exact h.2 _ _ hd
  · exact h.2 _ _ hi

theorem collectOne_same {d : BatchDict} (h : WFBatch d) {sid bid : String} {ct : Ciphertext} (hg : get2 d sid bid = some ct) :
    collectOne d sid bid ct = d := by
  unfold get2 at hg
  unfold collectOne
  cases hd : dget d sid with
  | none => rw [hd] at hg; cases hg
  | some i =>
    rw [hd] at hg
    rw [Option.getD_some, dset_same (h.2 _ _ hd) hg]
    exact dset_same h.1 hd

/-- The selections of the ballot are collected. -/
def Collected (d : BatchDict) (b : SBallot) : Prop :=
  ∀ s ∈ b.contests.flatMap (fun c => c.ballotSelections), get2 d s.objectId b.objectId = some s.ciphertext

theorem foldl_collect (bid : String) (l : List CSelection) (d : BatchDict) (hw : WFBatch d)
    (hn : (l.map (fun s => s.objectId)).Nodup) :
    WFBatch (l.foldl (fun d s => collectOne d s.objectId bid s.ciphertext) d) ∧
    (∀ s ∈ l, get2 (l.foldl (fun d s => collectOne d s.objectId bid s.ciphertext) d) s.objectId bid = some s.ciphertext) ∧
    ∀ sid bid', (bid ≠ bid' ∨ sid ∉ l.map (fun s => s.objectId)) →
      get2 (l.foldl (fun d s => collectOne d s.objectId bid s.ciphertext) d) sid bid' = get2 d sid bid' := by
  induction l generalizing d with
  | nil => exact ⟨hw, by simp, fun _ _ _ => rfl⟩
  | cons s l ih =>
    rw [List.map_cons, List.nodup_cons] at hn
    obtain ⟨h1, h2, h3⟩ := ih _ (wf_collectOne hw s.objectId bid s.ciphertext) hn.2
    refine ⟨h1, ?_, ?_⟩
    · intro x hx
      rw [List.foldl_cons]
      rcases List.mem_cons.1 hx with rfl | hx
      · rw [h3 _ _ (.inr hn.1), get2_collectOne, if_pos ⟨rfl, rfl⟩]
      · exact h2 x hx
    · intro sid bid' h
      rw [List.foldl_cons]
      rw [List.map_cons, List.mem_cons, not_or] at h
      have hno : ¬ (s.objectId = sid ∧ bid = bid') := by
        rintro ⟨hs, hb⟩
        rcases h with h | h
        · exact h hb
        · exact h.1 hs.symm
      rw [h3 sid bid' (h.imp_right And.right), get2_collectOne, if_neg hno]

theorem foldl_collect_same (bid : String) (l : List CSelection) (d : BatchDict) (hw : WFBatch d)
    (h : ∀ s ∈ l, get2 d s.objectId bid = some s.ciphertext) :
    l.foldl (fun d s => collectOne d s.objectId bid s.ciphertext) d = d := by
  induction l with
  | nil => rfl
  | cons s l ih =>
    rw [List.foldl_cons, collectOne_same hw (h s (List.mem_cons_self ..))]
    exact ih (fun x hx => h x (List.mem_cons_of_mem _ hx))

theorem batchLoop_append (m : InternalManifest) (ctx : Context) (validate : Bool) (a b : List SBallot) (t : Tally)
    (d : BatchDict) : batchLoop E m ctx validate (a ++ b) t d =
      match batchLoop E m ctx validate a t d with
      | (.ok d', t') => batchLoop E m ctx validate b t' d'
      | (.error e, t') => (.error e, t') := by
  induction a generalizing t d with
  | nil => rfl
  | cons x a ih =>
    rw [List.cons_append, batchLoop, batchLoop]
    cases ballotIsValidForElection E x.toCBallot m ctx validate with
    | error e => rfl
    | ok r =>
      cases r with
      | false => exact ih _ _
      | true => cases x.state <;> exact ih _ _

/-- What the loop leaves behind. -/
theorem batchLoop_inv {m : InternalManifest} {ctx : Context} {validate : Bool} (bs : List SBallot) (t t' : Tally)
    (d' : BatchDict) (hsel : ∀ b ∈ bs, ((b.contests.flatMap (fun c => c.ballotSelections)).map (fun s => s.objectId)).Nodup)
    (hid : ∀ b ∈ bs, ∀ b' ∈ bs, b.objectId = b'.objectId → b = b')
    (h : batchLoop E m ctx validate bs t [] = (.ok d', t')) :
    WFBatch d' ∧ ∀ b ∈ bs, ∃ r, ballotIsValidForElection E b.toCBallot m ctx validate = .ok r ∧
      (r = true → (b.state = .cast → Collected d' b) ∧ (b.state = .spoiled → b.objectId ∈ t'.spoiledIds)) := by
  induction bs using List.reverseRecOn generalizing t' d' with
  | nil =>
    cases h
    exact ⟨⟨List.nodup_nil, fun _ _ h => by cases h⟩, by simp⟩
  | append_singleton bs b ih =>
    rw [batchLoop_append] at h
    cases hl : batchLoop E m ctx validate bs t [] with
    | mk r1 t1 =>
      rw [hl] at h
      cases r1 with
      | error e => cases h
      | ok d1 =>
        obtain ⟨hw, hall⟩ := ih t1 d1 (fun x hx => hsel x (by simp [hx]))
          (fun x hx y hy => hid x (by simp [hx]) y (by simp [hy])) hl
        dsimp only at h
        rw [batchLoop] at h
        cases hval : ballotIsValidForElection E b.toCBallot m ctx validate with
        | error e => rw [hval] at h; cases h
        | ok r =>
          rw [hval] at h
          have hstep : WFBatch d' ∧ (∀ x ∈ bs, Collected d1 x → Collected d' x) ∧
              (∀ i ∈ t1.spoiledIds, i ∈ t'.spoiledIds) ∧ (r = true →
                (b.state = .cast → Collected d' b) ∧ (b.state = .spoiled → b.objectId ∈ t'.spoiledIds)) := by
            cases r with
            | false =>
              dsimp only at h
              rw [batchLoop] at h
              cases h
              exact ⟨hw, fun x _ hx => hx, fun i hi => hi, fun h => by cases h⟩
            | true =>
              dsimp only at h
              cases hst : b.state with
              | cast =>
                rw [hst] at h
                dsimp only at h
                rw [batchLoop] at h
                cases h
                have hf := foldl_collect b.objectId _ d1 hw (hsel b (by simp))
                rw [← collectBallot_eq] at hf
                refine ⟨hf.1, ?_, fun i hi => hi, fun _ => ⟨fun _ => hf.2.1, fun h => by cases h⟩⟩
                intro x hx hcx
                by_cases hxe : b.objectId = x.objectId
                · have := hid b (by simp) x (by simp [hx]) hxe
                  subst this
                  exact hf.2.1
                · intro s hs
                  rw [hf.2.2 _ _ (.inl hxe)]
                  exact hcx s hs
              | spoiled =>
                rw [hst] at h
                dsimp only at h
                rw [batchLoop] at h
                cases h
                refine ⟨hw, fun x _ hx => hx, ?_, fun _ => ⟨fun h => (by cases h), fun _ => ?_⟩⟩
                · intro i hi
                  simp only [addSpoiled, setAdd]
                  split
                  · exact hi
                  · exact List.mem_append_left _ hi
                · simp only [addSpoiled, setAdd]
                  split
                  · assumption
                  · simp
              | unknown =>
                rw [hst] at h
                dsimp only at h
                rw [batchLoop] at h
                cases h
                exact ⟨hw, fun x _ hx => hx, fun i hi => hi, fun _ => ⟨fun h => (by cases h), fun h => by cases h⟩⟩
          refine ⟨hstep.1, fun x hx => ?_⟩
          rcases List.mem_append.1 hx with hx | hx
          · obtain ⟨r', h1, h2⟩ := hall x hx
            exact ⟨r', h1, fun hr => ⟨fun hc => hstep.2.1 x hx ((h2 hr).1 hc), fun hs => hstep.2.2.1 _ ((h2 hr).2 hs)⟩⟩
          · simp only [List.mem_singleton] at hx
            subst hx
            exact ⟨r, hval, hstep.2.2.2⟩

/-- A ballot that is already in the batch changes nothing. -/
theorem batchLoop_repeat {m : InternalManifest} {ctx : Context} {validate : Bool} (bs : List SBallot) (t : Tally)
    (hsel : ∀ b ∈ bs, ((b.contests.flatMap (fun c => c.ballotSelections)).map (fun s => s.objectId)).Nodup)
    (hid : ∀ b ∈ bs, ∀ b' ∈ bs, b.objectId = b'.objectId → b = b') (b : SBallot) (hb : b ∈ bs) :
    batchLoop E m ctx validate (bs ++ [b]) t [] = batchLoop E m ctx validate bs t [] := by
  rw [batchLoop_append]
  cases hl : batchLoop E m ctx validate bs t [] with
  | mk r t' =>
    cases r with
    | error e => rfl
    | ok d' =>
      obtain ⟨hw, hall⟩ := batchLoop_inv bs t t' d' hsel hid hl
      obtain ⟨r, h1, h2⟩ := hall b hb
      dsimp only
      rw [batchLoop, h1]
      cases r with
      | false => rfl
      | true =>
        dsimp only
        cases hst : b.state with
        | cast =>
          dsimp only
          rw [batchLoop, collectBallot_eq, foldl_collect_same _ _ _ hw ((h2 rfl).1 hst)]
        | spoiled =>
          dsimp only
          rw [batchLoop]
          have := (h2 rfl).2 hst
          simp only [addSpoiled, setAdd, this, if_true]
        | unknown => rfl

theorem recordCast_append (a b : List SBallot) (s : List String) :
    recordCast (a ++ b) s = recordCast b (recordCast a s) := by
  induction a generalizing s with
  | nil => rfl
  | cons x a ih => exact ih _

theorem recordCast_mem (bs : List SBallot) (s : List String) :
    (∀ i ∈ s, i ∈ recordCast bs s) ∧ ∀ b ∈ bs, b.state = .cast → b.objectId ∈ recordCast bs s := by
  induction bs generalizing s with
  | nil => exact ⟨fun i hi => hi, by simp⟩
  | cons x bs ih =>
    rw [recordCast]
    have hset : ∀ i, i ∈ s ∨ (x.state = .cast ∧ i = x.objectId) →
        i ∈ (if x.state = .cast then setAdd s x.objectId else s) := by
      intro i hi
      split
      · unfold setAdd
        split
        · rcases hi with hi | ⟨-, rfl⟩
          · exact hi
          · assumption
        · rcases hi with hi | ⟨-, rfl⟩
          · exact List.mem_append_left _ hi
          · simp
      · rename_i hne
        rcases hi with hi | ⟨hc, -⟩
        · exact hi
        · exact absurd hc hne
    refine ⟨fun i hi => (ih _).1 i (hset i (.inl hi)), fun b hb hc => ?_⟩
    rcases List.mem_cons.1 hb with rfl | hb
    · exact (ih _).1 _ (hset _ (.inr ⟨hc, rfl⟩))
    · exact (ih _).2 b hb hc

/-- Repeated ballots do not change the batch. -/
theorem batch_firstById {m : InternalManifest} {ctx : Context} {validate : Bool} (bs : List SBallot) (t : Tally)
    (hsel : ∀ b ∈ bs, ((b.contests.flatMap (fun c => c.ballotSelections)).map (fun s => s.objectId)).Nodup)
    (hid : ∀ b ∈ bs, ∀ b' ∈ bs, b.objectId = b'.objectId → b = b') (s : List String) :
    batchLoop E m ctx validate bs t [] = batchLoop E m ctx validate (firstById bs) t [] ∧
      recordCast bs s = recordCast (firstById bs) s := by
  induction bs using List.reverseRecOn with
  | nil => exact ⟨rfl, rfl⟩
  | append_singleton bs b ih =>
    have hsel' : ∀ b ∈ bs, ((b.contests.flatMap (fun c => c.ballotSelections)).map (fun s => s.objectId)).Nodup :=
      fun x hx => hsel x (by simp [hx])
    have hid' : ∀ b ∈ bs, ∀ b' ∈ bs, b.objectId = b'.objectId → b = b' :=
      fun x hx y hy => hid x (by simp [hx]) y (by simp [hy])
    obtain ⟨h1, h2⟩ := ih hsel' hid'
    rw [firstById_append]
    by_cases hm : b.objectId ∈ bs.map (fun w => w.objectId)
    · obtain ⟨x, hx, hxe⟩ := List.mem_map.1 hm
      have := hid x (by simp [hx]) b (by simp) hxe
      subst this
      rw [if_pos hm, batchLoop_repeat bs t hsel' hid' x hx, recordCast_append]
      refine ⟨h1, ?_⟩
      rw [recordCast, recordCast, ← h2]
      split
      · rename_i hc
        unfold setAdd
        rw [if_pos ((recordCast_mem bs s).2 x hx hc)]
      · rfl
    · rw [if_neg hm, batchLoop_append, batchLoop_append, h1, recordCast_append, recordCast_append, h2]
      exact ⟨rfl, rfl⟩

end EG
