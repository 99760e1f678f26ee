import Verif.Lemmas.ElGamal
import Verif.Lemmas.Tally
import Verif.Spec.ToyElection

/-!
# C35, C36, C38 and C39: the encrypted tally
-/

namespace EG

/-- C38: if `append` does not return `True`, the tally is unchanged.  Partial: for ballots in which no contest is
repeated or foreign to the style and no real selection is marked as placeholder; otherwise see
`C38_half_added_fails`. -/
theorem C38_rejected_unchanged_partial (E : Env) (m : InternalManifest) (hm : TallyManifest m) (ctx : Context)
    (t : Tally) (hw : WFContests t.contests) (hs : Shape m t.contests) (b : SBallot) (hb : b.toCBallot.Regular m)
    (validate : Bool) (h : (t.append E m ctx true b validate).1 ≠ .ok true) :
    (t.append E m ctx true b validate).2 = t := by
  rcases append_cases E m ctx t b validate with ⟨-, h' | ⟨-, -, h1, h2⟩⟩ | ⟨h', -⟩
  · exact h'
  · rw [addCastLoop_regular hm hb h1 hw hs] at h2; cases h2
  · exact absurd h' h

/-- C38 for a tally with any history of appends. -/
theorem C38_history_partial (E : Env) (m : InternalManifest) (hm : TallyManifest m) (ctx : Context) (id : String)
    (up validate validate' : Bool) (bs : List SBallot) (b : SBallot) (hb : b.toCBallot.Regular m) :
    let t := (runAppends E m ctx up validate (newTally E id m) bs).2
    (t.append E m ctx true b validate').1 ≠ .ok true → (t.append E m ctx true b validate').2 = t := by
  obtain ⟨hw, hs⟩ := runAppends_keeps E m ctx up validate bs (newTally E id m) (newTally_wf E m) (newTally_shape E m)
  exact C38_rejected_unchanged_partial E m hm ctx _ hw hs b hb validate'

/-- C38 for any ballot whatsoever: the cast and spoiled sets are unchanged. -/
theorem C38_sets_unchanged (E : Env) (m : InternalManifest) (ctx : Context) (up : Bool) (t : Tally) (b : SBallot)
    (validate : Bool) (h : (t.append E m ctx up b validate).1 ≠ .ok true) :
    (t.append E m ctx up b validate).2.castIds = t.castIds ∧
    (t.append E m ctx up b validate).2.spoiledIds = t.spoiledIds := by
  unfold Tally.append at h ⊢
  split
  · exact ⟨rfl, rfl⟩
  · split
    · exact ⟨rfl, rfl⟩
    · rename_i h1 h2
      simp only [h1, h2, if_false] at h
      cases hv : ballotIsValidForElection E b.toCBallot m ctx validate with
      | error e => exact ⟨rfl, rfl⟩
      | ok r =>
        cases r with
        | false => exact ⟨rfl, rfl⟩
        | true =>
          simp only [hv] at h ⊢
          cases hst : b.state with
          | unknown => exact ⟨rfl, rfl⟩
          | spoiled => simp [hst] at h
          | cast =>
            simp only [hst] at h ⊢
            unfold addCast at h ⊢
            simp only at h ⊢
            split
            · rename_i h3; rw [if_pos h3] at h; exact absurd rfl h
            · exact ⟨rfl, rfl⟩

/-- What one accepted ballot does to the tally. -/
theorem append_true {E : Env} {m : InternalManifest} {ctx : Context} {t : Tally} {b : SBallot}
    {validate : Bool} (hw : WFContests t.contests) (h : (t.append E m ctx true b validate).1 = .ok true) :
    t.contains b = false ∧ ballotIsValidForElection E b.toCBallot m ctx validate = .ok true ∧
    ((b.state = .spoiled ∧ (t.append E m ctx true b validate).2 = addSpoiled t b) ∨
      b.state = .cast ∧ (t.append E m ctx true b validate).2 = { t with
        contests := bump E.P (contribution b.contests) t.contests
        castIds := setAdd t.castIds b.objectId }) := by
  rcases append_cases E m ctx t b validate with ⟨h', -⟩ | ⟨-, h1, h2, h3⟩
  · exact absurd h h'
  · refine ⟨h1, h2, ?_⟩
    rcases h3 with h3 | ⟨h3, h4, h5⟩
    · exact Or.inl h3
    · right
      refine ⟨h3, ?_⟩
      have h6 : (addCastLoop E.P true b.contests t.contests).2 = bump E.P (contribution b.contests) t.contests :=
        addCastLoop_true hw (Prod.ext h4 rfl)
      rw [h5, h6]

/-- C35, one step: an accepted cast ballot multiplies every total by what the ballot holds for the selection; an
accepted spoiled ballot changes no total.  Holds for all ballots. -/
theorem C35_append (E : Env) (m : InternalManifest) (ctx : Context) (t : Tally) (hw : WFContests t.contests)
    (b : SBallot) (validate : Bool) (h : (t.append E m ctx true b validate).1 = .ok true) (cid sid : String) :
    (b.state = .spoiled ∧ (t.append E m ctx true b validate).2.total cid sid = t.total cid sid) ∨
    b.state = .cast ∧ (t.append E m ctx true b validate).2.total cid sid =
      (t.total cid sid).map (fun x => (contribution b.contests cid sid).foldl (ctMul E.P) x) := by
  obtain ⟨-, -, ⟨h1, h2⟩ | ⟨h1, h2⟩⟩ := append_true hw h
  · left; rw [h2]; exact ⟨h1, rfl⟩
  · right
    rw [h2]
    exact ⟨h1, total_bump _ _ t.contests rfl cid sid⟩

/-- Everything about a sequence of appends of regular ballots. -/
theorem run_spec (E : Env) (m : InternalManifest) (hm : TallyManifest m) (ctx : Context) (validate : Bool)
    (bs : List SBallot) : ∀ t : Tally, WFContests t.contests → Shape m t.contests →
    (∀ b ∈ bs, b.toCBallot.Regular m) →
    let r := runAppends E m ctx true validate t bs
    r.2.contests = bump E.P (fun cid sid => (castOf r.1).flatMap (fun b => contribution b.contests cid sid))
      t.contests ∧
    (∀ id, id ∈ r.2.castIds ↔ id ∈ t.castIds ∨ ∃ b ∈ r.1, b.state = .cast ∧ b.objectId = id) ∧
    (∀ id, id ∈ r.2.spoiledIds ↔ id ∈ t.spoiledIds ∨ ∃ b ∈ r.1, b.state = .spoiled ∧ b.objectId = id) ∧
    r.1.Sublist bs ∧ (r.1.map (fun b => b.objectId)).Nodup ∧
    (∀ b ∈ r.1, t.contains b = false) ∧
    (∀ b ∈ r.1, b.state ≠ .unknown ∧ ballotIsValidForElection E b.toCBallot m ctx validate = .ok true) := by
  induction bs with
  | nil =>
    intro t _ _ _
    simp only [runAppends, castOf]
    exact ⟨by simp [bump_nil], by simp, by simp, List.Sublist.refl _, by simp, by simp, by simp⟩
  | cons b bs ih =>
    intro t hw hs hb
    simp only [runAppends]
    by_cases hr : (t.append E m ctx true b validate).1 = .ok true
    · rw [if_pos hr]
      obtain ⟨h0, hv, h⟩ := append_true hw hr
      generalize htt : (t.append E m ctx true b validate).2 = t' at h ⊢
      have hw' : WFContests t'.contests ∧ Shape m t'.contests := by
        rcases h with ⟨-, h⟩ | ⟨-, h⟩
        · rw [h]; exact ⟨hw, hs⟩
        · rw [h]; exact ⟨bump_wf _ hw, bump_shape hs⟩
      obtain ⟨i1, i2, i3, i4, i5, i6, i7⟩ := ih t' hw'.1 hw'.2 (fun b hb' => hb b (List.mem_cons_of_mem _ hb'))
      generalize runAppends E m ctx true validate t' bs = r at i1 i2 i3 i4 i5 i6 i7 ⊢
      have hcont : ∀ x : SBallot, t'.contains x = true ↔ t.contains x = true ∨ x.objectId = b.objectId := by
        intro x
        rcases h with ⟨-, h⟩ | ⟨-, h⟩
        · rw [h]; simp only [Tally.contains, addSpoiled, decide_eq_true_eq, setAdd_mem]; tauto
        · rw [h]; simp only [Tally.contains, decide_eq_true_eq, setAdd_mem]; tauto
      refine ⟨?_, ?_, ?_, i4.cons_cons _, ?_, ?_, ?_⟩
      · rw [i1]
        rcases h with ⟨hst, h⟩ | ⟨hst, h⟩
        · rw [h]
          simp only [addSpoiled, castOf, List.filter_cons, hst]
          rfl
        · rw [h]
          simp only [bump_bump, castOf, List.filter_cons, hst, decide_true, if_true, List.flatMap_cons]
      · intro id
        rw [i2]
        rcases h with ⟨hst, h⟩ | ⟨hst, h⟩
        · rw [h]; simp [addSpoiled, hst]
        · rw [h]; simp only [setAdd_mem, List.mem_cons, exists_eq_or_imp, hst, true_and, eq_comm (a := id), or_assoc]
      · intro id
        rw [i3]
        rcases h with ⟨hst, h⟩ | ⟨hst, h⟩
        · rw [h]
          simp only [addSpoiled, setAdd_mem, List.mem_cons, exists_eq_or_imp, hst, true_and, eq_comm (a := id), or_assoc]
        · rw [h]; simp [hst]
      · rw [List.map_cons, List.nodup_cons]
        refine ⟨fun hmem => ?_, i5⟩
        obtain ⟨x, hx, hxe⟩ := List.mem_map.1 hmem
        have := i6 x hx
        rw [(hcont x).2 (Or.inr hxe)] at this; cases this
      · intro x hx
        rcases List.mem_cons.1 hx with rfl | hx
        · exact h0
        · have h' := i6 x hx
          cases hc : t.contains x with
          | false => rfl
          | true => rw [(hcont x).2 (Or.inl hc)] at h'; cases h'
      · intro x hx
        rcases List.mem_cons.1 hx with rfl | hx
        · refine ⟨?_, hv⟩
          rcases h with ⟨hst, -⟩ | ⟨hst, -⟩ <;> rw [hst] <;> simp
        · exact i7 x hx
    · rw [if_neg hr]
      have hu := C38_rejected_unchanged_partial E m hm ctx t hw hs b (hb b List.mem_cons_self) validate hr
      rw [hu]
      obtain ⟨i1, i2, i3, i4, i5, i6, i7⟩ := ih t hw hs (fun b hb' => hb b (List.mem_cons_of_mem _ hb'))
      exact ⟨i1, i2, i3, i4.cons _, i5, i6, i7⟩

/-- C35: after any sequence of appends to a new tally, the total of every selection of the manifest is the product
of the selection's ciphertexts over the accepted cast ballots; each ballot id is accepted at most once, and the
two sets are the ids of the accepted ballots.  Partial: for regular ballots, and with the scheduler running;
otherwise see the `_fails` theorems. -/
theorem C35_total_partial (E : Env) (hp : 1 < E.P.p) (m : InternalManifest) (hm : TallyManifest m) (ctx : Context)
    (id : String) (validate : Bool) (bs : List SBallot) (hb : ∀ b ∈ bs, b.toCBallot.Regular m) :
    let r := runAppends E m ctx true validate (newTally E id m) bs
    (∀ d ∈ m.contests, ∀ sd ∈ d.ballotSelections, ∃ c, r.2.total d.objectId sd.objectId = some c ∧
      IsProduct E.P c ((castOf r.1).flatMap (fun b => contribution b.contests d.objectId sd.objectId))) ∧
    r.1.Sublist bs ∧ (r.1.map (fun b => b.objectId)).Nodup ∧
    (∀ x, x ∈ r.2.castIds ↔ ∃ b ∈ r.1, b.state = .cast ∧ b.objectId = x) ∧
    (∀ x, x ∈ r.2.spoiledIds ↔ ∃ b ∈ r.1, b.state = .spoiled ∧ b.objectId = x) ∧
    (∀ b ∈ r.1, ballotIsValidForElection E b.toCBallot m ctx validate = .ok true) := by
  obtain ⟨i1, i2, i3, i4, i5, -, i7⟩ := run_spec E m hm ctx validate bs (newTally E id m) (newTally_wf E m)
    (newTally_shape E m) hb
  refine ⟨?_, i4, i5, by simpa [newTally] using i2, by simpa [newTally] using i3, fun b hb => (i7 b hb).2⟩
  intro d hd sd hsd
  rw [total_bump _ _ _ i1]
  have := newTally_total E id m hm d.objectId sd.objectId
  unfold Tally.total at this
  rw [this, if_pos ⟨d, hd, rfl, sd, hsd, rfl⟩]
  exact ⟨_, rfl, foldl_ctMul_product hp _⟩

/-- A regular ballot contributes one ciphertext at most: it is counted once. -/
theorem C35_counted_once (b : SBallot) (m : InternalManifest) (hb : b.toCBallot.Regular m) (cid sid : String) :
    (contribution b.contests cid sid).length ≤ 1 := by
  have h1 : (b.contests.filter (fun c => c.objectId == cid)).length ≤ 1 := by
    have hn := hb.ids
    generalize b.contests = cs at hn
    induction cs with
    | nil => simp
    | cons c cs ih =>
      rw [List.map_cons, List.nodup_cons] at hn
      rw [List.filter_cons]
      split
      · rename_i h
        have : cs.filter (fun c => c.objectId == cid) = [] := by
          rw [List.filter_eq_nil_iff]
          intro x hx hxc
          refine hn.1 (List.mem_map.2 ⟨x, hx, ?_⟩)
          simp only [beq_iff_eq] at h hxc
          rw [h, hxc]
        simp [this]
      · exact ih hn.2
  exact (List.length_filterMap_le _ _).trans h1

/-- C35: if moreover the ballots' ciphertexts for the selection encrypt votes under the election key, the total
decrypts to the number of votes in the accepted cast ballots. -/
theorem C35_decrypts_partial (E : Env) (hv : E.P.Valid) (m : InternalManifest) (hm : TallyManifest m) (ctx : Context)
    (id : String) (validate : Bool) (bs : List SBallot) (hb : ∀ b ∈ bs, b.toCBallot.Regular m)
    (d : ContestWithPlaceholders) (hd : d ∈ m.contests) (sd : SelectionDescription) (hsd : sd ∈ d.ballotSelections)
    (votes : SBallot → Nat) (a maxE : Nat)
    (henc : ∀ b ∈ bs, b.state = .cast →
      (∃ ct, contribution b.contests d.objectId sd.objectId = [ct] ∧
        Encrypts E.P (E.P.g ^ a % E.P.p) (votes b) ct) ∨
      contribution b.contests d.objectId sd.objectId = [] ∧ votes b = 0)
    (hsum : ((castOf (runAppends E m ctx true validate (newTally E id m) bs).1).map votes).sum < E.P.q)
    (hmax : ((castOf (runAppends E m ctx true validate (newTally E id m) bs).1).map votes).sum ≤ maxE) :
    ∃ c, (runAppends E m ctx true validate (newTally E id m) bs).2.total d.objectId sd.objectId = some c ∧
      c.decrypt E.P maxE a =
        .ok ((castOf (runAppends E m ctx true validate (newTally E id m) bs).1).map votes).sum := by
  have : Fact E.P.p.Prime := ⟨hv.p_prime⟩
  obtain ⟨h1, h2, -⟩ := C35_total_partial E hv.one_lt_p m hm ctx id validate bs hb
  obtain ⟨c, hc, hprod⟩ := h1 d hd sd hsd
  refine ⟨c, hc, ?_⟩
  generalize (runAppends E m ctx true validate (newTally E id m) bs).1 = acc at h2 hprod hsum hmax ⊢
  have hcast : ∀ b ∈ castOf acc, b ∈ bs ∧ b.state = .cast := by
    intro b hb
    rw [castOf, List.mem_filter, decide_eq_true_eq] at hb
    exact ⟨h2.subset hb.1, hb.2⟩
  have key : ∀ l : List SBallot, (∀ b ∈ l, b ∈ bs ∧ b.state = .cast) → ∃ r : Nat,
      (((l.flatMap (fun b => contribution b.contests d.objectId sd.objectId)).map Ciphertext.pad).prod : ZMod E.P.p)
        = (E.P.g : ZMod E.P.p) ^ r ∧
      (((l.flatMap (fun b => contribution b.contests d.objectId sd.objectId)).map Ciphertext.data).prod : ZMod E.P.p)
        = (E.P.g : ZMod E.P.p) ^ (l.map votes).sum * (((E.P.g : ZMod E.P.p) ^ a) ^ r) := by
    intro l hl
    induction l with
    | nil => exact ⟨0, by simp, by simp⟩
    | cons b l ih =>
      obtain ⟨r, hr1, hr2⟩ := ih (fun x hx => hl x (List.mem_cons_of_mem _ hx))
      rcases henc b (hl b List.mem_cons_self).1 (hl b List.mem_cons_self).2 with ⟨ct, hct, s, henc⟩ | ⟨h0, hv0⟩
      · obtain ⟨-, -, e1, e2⟩ := (encryptsWith_iff_cast hv).1 henc
        refine ⟨s + r, ?_, ?_⟩
        · simp only [List.flatMap_cons, hct, List.singleton_append, List.map_cons, List.prod_cons, Nat.cast_mul, hr1,
            e1, pow_add]
        · simp only [List.flatMap_cons, hct, List.singleton_append, List.map_cons, List.prod_cons, Nat.cast_mul, hr2,
            e2, List.sum_cons, pow_add, ZMod.natCast_mod, Nat.cast_pow]
          ring
      · refine ⟨r, ?_, ?_⟩
        · simpa only [List.flatMap_cons, h0, List.nil_append] using hr1
        · simpa only [List.flatMap_cons, h0, List.nil_append, List.map_cons, hv0, List.sum_cons, zero_add] using hr2
  obtain ⟨r, hr1, hr2⟩ := key _ hcast
  refine decryptKnownProduct_spec hv hsum hmax ?_ ?_
  · rw [powP_cast, hprod.1, ZMod.natCast_mod, hr1]
    exact pow_ne_zero _ (pow_ne_zero _ (g_cast_ne_zero hv))
  · rw [powP_cast, hprod.1, hprod.2, ZMod.natCast_mod, ZMod.natCast_mod, hr1, hr2, ← pow_mul, ← pow_mul,
      Nat.mul_comm]

/-- C36: once a ballot was accepted, and after any further appends, appending a ballot with the same id returns
`False` and leaves the tally unchanged.  Holds for all ballots and with the scheduler running or not. -/
theorem C36_append_twice (E : Env) (m : InternalManifest) (ctx : Context) (up : Bool) (t : Tally) (b b' : SBallot)
    (v v' v'' : Bool) (bs : List SBallot) (h : (t.append E m ctx up b v).1 = .ok true)
    (hid : b'.objectId = b.objectId) :
    let t' := (runAppends E m ctx up v' (t.append E m ctx up b v).2 bs).2
    t'.append E m ctx up b' v'' = (.ok false, t') := by
  have mono : ∀ (t : Tally) (x : SBallot) (v : Bool) (i : String), (i ∈ t.castIds ∨ i ∈ t.spoiledIds) →
      (i ∈ (t.append E m ctx up x v).2.castIds ∨ i ∈ (t.append E m ctx up x v).2.spoiledIds) := by
    intro t x v i hi
    by_cases hr : (t.append E m ctx up x v).1 = .ok true
    · unfold Tally.append at hr ⊢
      split
      · exact hi
      · split
        · exact hi
        · split
          · exact hi
          · exact hi
          · split
            · unfold addCast
              simp only
              split
              · simp only [setAdd_mem]; tauto
              · exact hi
            · simp only [addSpoiled, setAdd_mem]; tauto
            · exact hi
    · obtain ⟨h1, h2⟩ := C38_sets_unchanged E m ctx up t x v hr
      rw [h1, h2]; exact hi
  have acc : b.objectId ∈ (t.append E m ctx up b v).2.castIds ∨
      b.objectId ∈ (t.append E m ctx up b v).2.spoiledIds := by
    unfold Tally.append at h ⊢
    split
    · rename_i h1; rw [if_pos h1] at h; simp at h
    · rename_i h1
      rw [if_neg h1] at h
      split
      · rename_i h2; rw [if_pos h2] at h; simp at h
      · rename_i h2
        rw [if_neg h2] at h
        cases hv : ballotIsValidForElection E b.toCBallot m ctx v with
        | error e => rw [hv] at h; simp at h
        | ok r =>
          rw [hv] at h
          cases r with
          | false => simp at h
          | true =>
            simp only at h ⊢
            cases hst : b.state with
            | unknown => exact absurd hst h1
            | spoiled => simp [addSpoiled, setAdd_mem]
            | cast =>
              simp only [hst] at h ⊢
              unfold addCast at h ⊢
              simp only at h ⊢
              split
              · simp [setAdd_mem]
              · rename_i h3; rw [if_neg h3] at h; simp at h
  have run : ∀ (bs : List SBallot) (t : Tally), (b.objectId ∈ t.castIds ∨ b.objectId ∈ t.spoiledIds) →
      (b.objectId ∈ (runAppends E m ctx up v' t bs).2.castIds ∨
        b.objectId ∈ (runAppends E m ctx up v' t bs).2.spoiledIds) := by
    intro bs
    induction bs with
    | nil => intro t ht; exact ht
    | cons x bs ih => intro t ht; exact ih _ (mono t x v' _ ht)
  have := run bs _ acc
  intro t'
  unfold Tally.append
  split
  · rfl
  · rw [if_pos]
    simp only [Tally.contains, decide_eq_true_eq, hid]
    exact this

/-- The toy election satisfies the conditions of the theorems above, and its honest ballots are regular. -/
theorem toyTallyManifest : TallyManifest toyIM := ⟨by decide +kernel, by decide +kernel⟩

theorem toy_style_t : ∀ d ∈ toyIM.contests, toyIM.StyleHas "t" d := by
  intro d hd
  refine ⟨⟨"t", some ["u", "w"], none, none⟩, ["u", "w"], by decide +kernel, rfl, hd, ?_⟩
  have : ∀ d ∈ toyIM.contests, d.electoralDistrictId ∈ ["u", "w"] := by decide +kernel
  exact this d hd

theorem toy_regular : (toyEncrypt "b" "t" 1 0 1 0).Regular toyIM := by
  refine ⟨by decide +kernel, ?_, by decide +kernel⟩
  intro c hc
  have h : ∀ c ∈ (toyEncrypt "b" "t" 1 0 1 0).contests, ∃ d ∈ toyIM.contests, d.objectId = c.objectId := by
    decide +kernel
  obtain ⟨d, hd, he⟩ := h c hc
  have hs : (toyEncrypt "b" "t" 1 0 1 0).styleId = "t" := by decide +kernel
  rw [hs]
  exact ⟨d, toy_style_t d hd, he⟩

/-- Concretely: a cast ballot, the same ballot again, and a spoiled ballot; one vote for `sx`, none for `sy`. -/
example :
    let b := toySubmit "b" "t" 1 0 1 0 .cast
    let r := runAppends toyEnv toyIM toyCtx true true (newTally toyEnv "t" toyIM) [b, b, toySubmit "b2" "s" 0 1 0 3 .spoiled]
    r.1.map (fun b => b.objectId) = ["b", "b2"] ∧ r.2.castIds = ["b"] ∧ r.2.spoiledIds = ["b2"] ∧
    (r.2.total "c" "sx").map (fun c => (c.decrypt extraSmall 10 5).toOption) = some (some 1) ∧
    (r.2.total "c" "sy").map (fun c => (c.decrypt extraSmall 10 5).toOption) = some (some 0) ∧
    r.2.total "c" "nobody" = none := by decide +kernel

/-- A ballot with a recomputed hash. -/
def toyRehash (b : SBallot) : SBallot := { b with cryptoHash := b.toCBallot.cryptoHashWith toyEnv b.manifestHash }

/-- An honest ballot of style `s` to which a copy of its contest with an unknown id is added. -/
def toyForeign : SBallot :=
  let b := toySubmit "b" "s" 1 0 0 3 .cast
  toyRehash { b with contests := b.contests ++ b.contests.map (fun c => { c with
    objectId := "zz"
    cryptoHash := contestCryptoHash toyEnv "zz" c.ballotSelections c.descriptionHash }) }

/-- C38 fails for a ballot with a contest that is not in the manifest: the ballot passes validation, `append` returns
`False`, and the total of a selection has changed. -/
theorem C38_half_added_fails : ∃ (E : Env) (m : InternalManifest) (ctx : Context) (t : Tally) (b : SBallot),
    E.P.Valid ∧ TallyManifest m ∧ ballotIsValidForElection E b.toCBallot m ctx true = .ok true ∧
    t = newTally E "t" m ∧ (t.append E m ctx true b true).1 = .ok false ∧
    (t.append E m ctx true b true).2.total "c" "sx" ≠ t.total "c" "sx" :=
  ⟨toyEnv, toyIM, toyCtx, newTally toyEnv "t" toyIM, toyForeign, extraSmall_valid, toyTallyManifest,
    by decide +kernel, rfl, by decide +kernel, by decide +kernel⟩

/-- An honest ballot of style `s` with its contest repeated. -/
def toyRepeated : SBallot :=
  let b := toySubmit "b" "s" 1 0 0 3 .cast
  toyRehash { b with contests := b.contests ++ b.contests }

/-- C35 fails for a ballot that repeats a contest: it passes validation, is accepted once, and its vote is counted
twice. -/
theorem C35_repeated_contest_fails : ∃ (E : Env) (m : InternalManifest) (ctx : Context) (b : SBallot) (a : Nat),
    E.P.Valid ∧ TallyManifest m ∧ ctx.elgamalPublicKey = E.P.g ^ a % E.P.p ∧
    ballotIsValidForElection E b.toCBallot m ctx true = .ok true ∧
    (∀ d ∈ m.contests, d.numberElected = 1) ∧
    ((newTally E "t" m).append E m ctx true b true).1 = .ok true ∧
    (((newTally E "t" m).append E m ctx true b true).2.total "c" "sx").map
      (fun c => (c.decrypt E.P 10 a).toOption) = some (some 2) :=
  ⟨toyEnv, toyIM, toyCtx, toyRepeated, 5, extraSmall_valid, toyTallyManifest, by decide +kernel,
    by decide +kernel, by decide +kernel, by decide +kernel, by decide +kernel⟩

/-- An honest ballot, marked as cast. -/
def toyCastBallot : SBallot := ⟨toyEncrypt "b" "t" 1 0 1 0, .cast⟩

private theorem regular_mk {m : InternalManifest} {b : CBallot} (st : BallotBoxState) (h : b.Regular m) :
    (SBallot.mk b st).toCBallot.Regular m := h

private theorem toyCast_regular : toyCastBallot.toCBallot.Regular toyIM := by
  unfold toyCastBallot
  exact regular_mk .cast toy_regular

private theorem closed1 : ((newTally toyEnv "t" toyIM).append toyEnv toyIM toyCtx false toyCastBallot true).1 = .ok true := by
  decide +kernel
private theorem closed2 : ((newTally toyEnv "t" toyIM).append toyEnv toyIM toyCtx false toyCastBallot true).2.castIds
    = [toyCastBallot.objectId] := by decide +kernel
private theorem closed3 :
    (((newTally toyEnv "t" toyIM).append toyEnv toyIM toyCtx false toyCastBallot true).2.total "c" "sx")
      = (newTally toyEnv "t" toyIM).total "c" "sx" := by decide +kernel
private theorem closed4 :
    ((contribution toyCastBallot.contests "c" "sx").map (fun c => (c.decrypt toyEnv.P 10 5).toOption)) = [some 1] := by
  decide +kernel

/-- C35 fails when the scheduler's pool is closed: the ballot is accepted and recorded as cast, but nothing is added
to the totals. -/
theorem C35_closed_pool_fails : ∃ (E : Env) (m : InternalManifest) (ctx : Context) (b : SBallot) (a : Nat),
    E.P.Valid ∧ TallyManifest m ∧ b.toCBallot.Regular m ∧
    ((newTally E "t" m).append E m ctx false b true).1 = .ok true ∧
    ((newTally E "t" m).append E m ctx false b true).2.castIds = [b.objectId] ∧
    (((newTally E "t" m).append E m ctx false b true).2.total "c" "sx") = (newTally E "t" m).total "c" "sx" ∧
    ((contribution b.contests "c" "sx").map (fun c => (c.decrypt E.P 10 a).toOption)) = [some 1] :=
  ⟨toyEnv, toyIM, toyCtx, toyCastBallot, 5, extraSmall_valid, toyTallyManifest, toyCast_regular, closed1, closed2,
    closed3, closed4⟩

/-- C36, concretely: the second append of the same ballot is refused. -/
example :
    let b := toySubmit "b" "t" 1 0 1 0 .cast
    let r := (newTally toyEnv "t" toyIM).append toyEnv toyIM toyCtx true b true
    r.1 = .ok true ∧ (r.2.append toyEnv toyIM toyCtx true { b with state := .spoiled } true).1 = .ok false := by
  decide +kernel

/-! ## Order -/

theorem accepts_iff {E : Env} {m : InternalManifest} (hm : TallyManifest m) {ctx : Context} {t : Tally}
    (hw : WFContests t.contests) (hs : Shape m t.contests) {b : SBallot} (hb : b.toCBallot.Regular m)
    {validate : Bool} : (t.append E m ctx true b validate).1 = .ok true ↔
      t.contains b = false ∧ b.state ≠ .unknown ∧ ballotIsValidForElection E b.toCBallot m ctx validate = .ok true := by
  constructor
  · intro h
    obtain ⟨h1, h2, h3⟩ := append_true hw h
    refine ⟨h1, ?_, h2⟩
    rcases h3 with ⟨h3, -⟩ | ⟨h3, -⟩ <;> rw [h3] <;> simp
  · rintro ⟨h1, h2, h3⟩
    unfold Tally.append
    rw [if_neg h2, h1, h3]
    simp only [Bool.false_eq_true, if_false]
    cases hst : b.state with
    | unknown => exact absurd hst h2
    | spoiled => rfl
    | cast =>
      have hms : b.toCBallot.MatchesStyle E m := by
        have h4 := (ballotIsValidForElection_true E _ m ctx validate h3).1
        rcases ballotIsValidForStyle_cases E b.toCBallot m with ⟨-, h⟩ | ⟨-, r, h, hr⟩
        · rw [h] at h4; cases h4
        · rw [h4] at h; cases h; exact hr.1 rfl
      have := addCastLoop_regular (P := E.P) hm hb hms hw hs
      simp [addCast, this]

/-- The ballots that a tally accepts, when no id occurs twice. -/
theorem accepted_eq (E : Env) (m : InternalManifest) (hm : TallyManifest m) (ctx : Context) (validate : Bool)
    (bs : List SBallot) (hn : (bs.map (fun b => b.objectId)).Nodup) : ∀ t : Tally, WFContests t.contests →
    Shape m t.contests → (∀ b ∈ bs, b.toCBallot.Regular m) →
    (runAppends E m ctx true validate t bs).1 = bs.filter (fun b => decide (t.contains b = false ∧ b.state ≠ .unknown ∧
      ballotIsValidForElection E b.toCBallot m ctx validate = .ok true)) := by
  induction bs with
  | nil => intros; rfl
  | cons b bs ih =>
    intro t hw hs hb
    rw [List.map_cons, List.nodup_cons] at hn
    have hbb := hb b List.mem_cons_self
    have hbs := fun x hx => hb x (List.mem_cons_of_mem _ hx)
    rw [List.filter_cons]
    simp only [runAppends]
    by_cases hr : (t.append E m ctx true b validate).1 = .ok true
    · rw [if_pos hr, if_pos (by simpa using (accepts_iff hm hw hs hbb).1 hr)]
      obtain ⟨hw', hs'⟩ := append_keeps E m ctx true t b validate hw hs
      rw [ih hn.2 _ hw' hs' hbs]
      congr 1
      refine List.filter_congr (fun x hx => ?_)
      have hne : x.objectId ≠ b.objectId := fun h => hn.1 (List.mem_map.2 ⟨x, hx, h⟩)
      have : (t.append E m ctx true b validate).2.contains x = t.contains x := by
        obtain ⟨-, -, ⟨-, h⟩ | ⟨-, h⟩⟩ := append_true hw hr
        · rw [h]; simp [Tally.contains, addSpoiled, setAdd_mem, hne]
        · rw [h]; simp [Tally.contains, setAdd_mem, hne]
      rw [this]
    · rw [if_neg hr, if_neg (fun h => hr ((accepts_iff hm hw hs hbb).2 (of_decide_eq_true h)))]
      rw [C38_rejected_unchanged_partial E m hm ctx t hw hs b hbb validate hr]
      exact ih hn.2 t hw hs hbs

/-- C39: appending the same ballots in another order accepts the same ballots and gives the same totals and sets.
Partial: ballots are regular, as in C38. -/
theorem C39_order_partial (E : Env) (m : InternalManifest) (hm : TallyManifest m) (ctx : Context)
    (validate : Bool) (t : Tally) (hw : WFContests t.contests) (hs : Shape m t.contests) (bs bs' : List SBallot)
    (hp : bs.Perm bs') (hn : (bs.map (fun b => b.objectId)).Nodup) (hb : ∀ b ∈ bs, b.toCBallot.Regular m) :
    let r := runAppends E m ctx true validate t bs
    let r' := runAppends E m ctx true validate t bs'
    r.1.Perm r'.1 ∧ r.2.contests = r'.2.contests ∧ (∀ x, x ∈ r.2.castIds ↔ x ∈ r'.2.castIds) ∧
      (∀ x, x ∈ r.2.spoiledIds ↔ x ∈ r'.2.spoiledIds) := by
  have hb' : ∀ b ∈ bs', b.toCBallot.Regular m := fun b h => hb b (hp.mem_iff.2 h)
  have hn' : (bs'.map (fun b => b.objectId)).Nodup := (hp.map _).nodup_iff.1 hn
  have h1 := accepted_eq E m hm ctx validate bs hn t hw hs hb
  have h2 := accepted_eq E m hm ctx validate bs' hn' t hw hs hb'
  have hperm : (runAppends E m ctx true validate t bs).1.Perm (runAppends E m ctx true validate t bs').1 := by
    rw [h1, h2]; exact hp.filter _
  obtain ⟨i1, i2, i3, -⟩ := run_spec E m hm ctx validate bs t hw hs hb
  obtain ⟨j1, j2, j3, -⟩ := run_spec E m hm ctx validate bs' t hw hs hb'
  refine ⟨hperm, ?_, ?_, ?_⟩
  · rw [i1, j1]
    refine bump_congr (fun e _ s _ x => foldl_ctMul_perm ?_ x)
    exact (hperm.filter _).flatMap_right _
  · intro x; rw [i2, j2]
    simp only [hperm.mem_iff]
  · intro x; rw [i3, j3]
    simp only [hperm.mem_iff]

/-- C39: the per-selection results may be written back in any order. -/
theorem C39_schedule (ss : List CSelection) (tc : TallyContest) (P : Params) (hn : (dkeys tc.selections).Nodup)
    (h : ∀ e ∈ tc.selections, ∃ s ∈ ss, s.objectId = e.1)
    (results : List (String × Option Ciphertext)) (hp : results.Perm (tc.selections.map (accumulateOne P ss))) :
    applyResults results tc.selections = applyResults (tc.selections.map (accumulateOne P ss)) tc.selections := by
  have hall : ∀ e ∈ tc.selections, (firstCt ss e.1).isSome = true := by
    intro e he
    obtain ⟨s, hs, h1⟩ := h e he
    unfold firstCt
    rw [Option.isSome_map, List.find?_isSome]
    exact ⟨s, hs, by simpa using h1⟩
  let val : String × TallySelection → String × Ciphertext := fun e =>
    (e.1, ((firstCt ss e.1).map (fun c => ctMul P e.2.ciphertext c)).getD ⟨0, 0⟩)
  have h1 : tc.selections.map (accumulateOne P ss)
      = (tc.selections.map val).map (fun e => (e.1, some e.2)) := by
    rw [List.map_map]
    refine List.map_congr_left (fun e he => ?_)
    rw [accumulateOne_eq]
    obtain ⟨c, hc⟩ := Option.isSome_iff_exists.1 (hall e he)
    simp [val, hc]
  have hk : dkeys (tc.selections.map val) = dkeys tc.selections := by
    simp [dkeys, val, List.map_map, Function.comp_def]
  rw [h1] at hp
  let back : String × Option Ciphertext → String × Ciphertext := fun e => (e.1, e.2.getD ⟨0, 0⟩)
  have hr : results = (results.map back).map (fun e => (e.1, some e.2)) := by
    rw [List.map_map]
    conv_lhs => rw [← List.map_id results]
    refine List.map_congr_left (fun e he => ?_)
    obtain ⟨kc, -, rfl⟩ := List.mem_map.1 (hp.mem_iff.1 he)
    rfl
  have hpk : (results.map back).Perm (tc.selections.map val) := by
    have := hp.map back
    rw [List.map_map] at this
    have hid : (back ∘ fun e : String × Ciphertext => (e.1, some e.2)) = id := rfl
    rwa [hid, List.map_id] at this
  have hkn : (dkeys (results.map back)).Nodup := by
    have : (dkeys (results.map back)).Perm (dkeys (tc.selections.map val)) := hpk.map _
    rw [this.nodup_iff, hk]; exact hn
  rw [hr, h1, applyResults_some _ hkn, applyResults_some _ (by rw [hk]; exact hn)]
  congr 1
  refine List.map_congr_left (fun e he => ?_)
  have hm : val e ∈ tc.selections.map val := List.mem_map_of_mem he
  have d1 : dget (tc.selections.map val) e.1 = some (val e).2 := dget_of_mem (by rw [hk]; exact hn) hm
  have d2 : dget (results.map back) e.1 = some (val e).2 := dget_of_mem hkn (hpk.mem_iff.2 hm)
  rw [d1, d2]

end EG
