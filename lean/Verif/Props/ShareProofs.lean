import Verif.Props.DecryptionMediator

/-!
# C17: what the mediator checks about the shares it combines
-/

namespace EG

variable {E : Env} {P : Params}

/-- A share of a selection with the given value and an empty list of recovered parts. -/
def forgedSelection (id guardianId : String) (share : Nat) : DecSelection := ⟨id, guardianId, share, none, some []⟩

/-- C17 does not hold: whatever the other guardians hand in, and for every wanted number `v`, there is a share without
any proof with which the selection decrypts to `v`.  It carries an empty dict of recovered parts, which `is_valid`
accepts. -/
theorem C17_any_number_fails (hv : E.P.Valid) (maxE v baseHash : Nat) (s : CtSelection) (gid : String) (pub : Nat)
    (others : List (String × (Nat × DecSelection)))
    (hvalid : ∀ e ∈ others, e.2.2.isValid E s.ciphertext e.2.1 baseHash = true)
    (hne : ∀ e ∈ others, ((e.2.2.share : Nat) : ZMod E.P.p) ≠ 0) (hdata : ((s.ciphertext.data : Nat) : ZMod E.P.p) ≠ 0)
    (hv1 : v < E.P.q) (hv2 : v ≤ maxE) :
    ∃ x pt, decryptSelectionWithShares E maxE s (others ++ [(gid, (pub, forgedSelection s.objectId gid x))]) baseHash
      = .ok (some pt) ∧ pt.tally = v := by
  have : Fact E.P.p.Prime := ⟨hv.p_prime⟩
  set prod : ZMod E.P.p := (others.map (fun e => ((e.2.2.share : Nat) : ZMod E.P.p))).prod with hprod
  have hprod0 : prod ≠ 0 := by
    rw [hprod]
    refine List.prod_ne_zero ?_
    intro h
    obtain ⟨e, he, h0⟩ := List.mem_map.1 h
    exact hne e he h0
  have hg0 : (E.P.g : ZMod E.P.p) ^ v ≠ 0 := pow_ne_zero _ (g_cast_ne_zero hv)
  set x : ZMod E.P.p := (s.ciphertext.data : ZMod E.P.p) * (prod * (E.P.g : ZMod E.P.p) ^ v)⁻¹ with hx
  have hx0 : x ≠ 0 := mul_ne_zero hdata (inv_ne_zero (mul_ne_zero hprod0 hg0))
  refine ⟨x.val, ?_⟩
  set shares := others ++ [(gid, (pub, forgedSelection s.objectId gid x.val))] with hshares
  have hall : shares.all (fun e => e.2.2.isValid E s.ciphertext e.2.1 baseHash) = true := by
    rw [List.all_eq_true]
    intro e he
    rw [hshares, List.mem_append, List.mem_singleton] at he
    rcases he with he | rfl
    · exact hvalid e he
    · rfl
  have hm : ((multPs E.P (shares.map (fun e => e.2.2.share)) : Nat) : ZMod E.P.p) = prod * x := by
    rw [multPs_cast, List.map_map, hshares, List.map_append, List.prod_append]
    simp only [Function.comp, List.map_cons, List.map_nil, List.prod_cons, List.prod_nil, mul_one, forgedSelection,
      ZMod.natCast_val, ZMod.cast_id', _root_.id]
    rw [hprod]
    rfl
  have hm0 : ((multPs E.P (shares.map (fun e => e.2.2.share)) : Nat) : ZMod E.P.p) ≠ 0 := by
    rw [hm]; exact mul_ne_zero hprod0 hx0
  obtain ⟨i, hi⟩ := invert_isOk hv.p_prime hm0
  have hmul : multP E.P s.ciphertext.data i = gPowP E.P v := by
    rw [← castP_inj (multP_lt hv.one_lt_p _ _) (gPowP_lt hv.p_pos _), multP_cast, gPowP_cast,
      (invert_cast hv.p_prime hi).2, hm, hx]
    field_simp
  refine ⟨⟨s.objectId, v, gPowP E.P v, s.ciphertext, shares.map (fun e => e.2.2)⟩, ?_, rfl⟩
  unfold decryptSelectionWithShares
  rw [hall]
  simp only [divP, hi, bind, Except.bind, pure, Except.pure, hmul, dlog_gPow hv hv2 hv1]
  simp

/-! ### What is checked -/

theorem decryptSelectionsLoop_valid (maxE : Nat) (shares : List (String × DecShare)) (baseHash : Nat)
    (ids : List String) (l : List CtSelection) (d r : List (String × PTSelection))
    (h : decryptSelectionsLoop E maxE shares baseHash ids true l d = .ok (some r)) :
    ∀ s ∈ l, s.objectId ∈ ids → ∀ e ∈ getSharesForSelection s.objectId shares,
      e.2.2.isValid E s.ciphertext e.2.1 baseHash = true := by
  induction l generalizing d with
  | nil => intro s hs; cases hs
  | cons s l ih =>
    unfold decryptSelectionsLoop at h
    by_cases hid : s.objectId ∈ ids
    · rw [if_neg (by simp [hid])] at h
      by_cases hb : ∃ e ∈ getSharesForSelection s.objectId shares, e.2.2.isValid E s.ciphertext e.2.1 baseHash = false
      · rw [C14_invalid_share_refused maxE s _ baseHash hb] at h
        cases h
      · push_neg at hb
        simp only [bind, Except.bind, pure, Except.pure] at h
        cases hd : decryptSelectionWithShares E maxE s (getSharesForSelection s.objectId shares) baseHash with
        | error e => rw [hd] at h; cases h
        | ok o =>
          cases o with
          | none => rw [hd] at h; cases h
          | some p =>
            rw [hd] at h
            intro s' hs' hid' e he
            rcases List.mem_cons.1 hs' with rfl | hs'
            · simpa using hb e he
            · exact ih _ h s' hs' hid' e he
    · rw [if_pos ⟨hid, rfl⟩] at h
      intro s' hs' hid' e he
      rcases List.mem_cons.1 hs' with rfl | hs'
      · exact absurd hid' hid
      · exact ih _ h s' hs' hid' e he

theorem decryptContestsLoop_valid (maxE : Nat) (shares : List (String × DecShare)) (baseHash : Nat)
    (m : Manifest) (cs : List CtContest) (d r : List (String × PTContest))
    (h : decryptContestsLoop E maxE shares baseHash m true cs d = .ok (some r)) :
    ∀ c ∈ cs, ∀ s ∈ c.selections, Describes m c.objectId s.objectId →
      ∀ e ∈ getSharesForSelection s.objectId shares, e.2.2.isValid E s.ciphertext e.2.1 baseHash = true := by
  induction cs generalizing d with
  | nil => intro c hc; cases hc
  | cons c cs ih =>
    unfold decryptContestsLoop at h
    rw [contestDescriptions_get] at h
    intro c' hc' s hs hdesc e he
    cases hf : m.contests.reverse.find? (fun x => x.objectId == c.objectId) with
    | none =>
      rw [hf] at h
      rcases List.mem_cons.1 hc' with rfl | hc'
      · obtain ⟨x, hx, _⟩ := hdesc
        rw [hf] at hx; cases hx
      · exact ih _ h c' hc' s hs hdesc e he
    | some desc =>
      rw [hf] at h
      simp only [decryptContestWithShares, bind, Except.bind, pure, Except.pure] at h
      cases hl : decryptSelectionsLoop E maxE shares baseHash (desc.ballotSelections.map (fun s => s.objectId)) true
          c.selections [] with
      | error e => rw [hl] at h; cases h
      | ok o =>
        cases o with
        | none => rw [hl] at h; cases h
        | some x =>
          rw [hl] at h
          rcases List.mem_cons.1 hc' with rfl | hc'
          · obtain ⟨y, hy, hys⟩ := hdesc
            rw [hf] at hy
            cases hy
            exact decryptSelectionsLoop_valid maxE shares baseHash _ _ _ _ hl s hs hys e he
          · exact ih _ h c' hc' s hs hdesc e he

theorem sharesFrom_other (sid : String) (sh : DecShare) (d : List (String × (Nat × DecSelection))) {g : String}
    (hg : sh.guardianId ≠ g) : dget (sharesFrom sid sh d) g = dget d g := by
  rw [sharesFrom_eq]
  induction sh.allSelections generalizing d with
  | nil => rfl
  | cons x l ih =>
    rw [List.foldl_cons, ih]
    split
    · rw [dget_dset, if_neg hg]
    · rfl

theorem getShares_mem (sid : String) (shares : List (String × DecShare)) (e : String × DecShare) (he : e ∈ shares)
    (hg : (shares.map (fun e => e.2.guardianId)).Nodup) (x : DecSelection) (hx : x ∈ e.2.allSelections)
    (hn : (e.2.allSelections.map (fun x => x.objectId)).Nodup) (hid : x.objectId = sid) :
    dget (getSharesForSelection sid shares) e.2.guardianId = some (e.2.publicKey, x) := by
  obtain ⟨l1, l2, rfl⟩ := List.append_of_mem he
  unfold getSharesForSelection
  rw [List.foldl_append, List.foldl_cons]
  generalize l1.foldl (fun d sh => sharesFrom sid sh.2 d) [] = d
  have hl2 : ∀ y ∈ l2, y.2.guardianId ≠ e.2.guardianId := by
    rw [List.map_append, List.map_cons] at hg
    have := (List.nodup_append.1 hg).2.1
    rw [List.nodup_cons] at this
    intro y hy h
    exact this.1 (List.mem_map.2 ⟨y, hy, h⟩)
  have after : ∀ (l : List (String × DecShare)) (d : List (String × (Nat × DecSelection))),
      (∀ y ∈ l, y.2.guardianId ≠ e.2.guardianId) →
      dget (l.foldl (fun d sh => sharesFrom sid sh.2 d) d) e.2.guardianId = dget d e.2.guardianId := by
    intro l
    induction l with
    | nil => intros; rfl
    | cons y l ih =>
      intro d h
      rw [List.foldl_cons, ih _ (fun z hz => h z (List.mem_cons_of_mem _ hz)),
        sharesFrom_other sid y.2 d (h y List.mem_cons_self)]
  rw [after l2 _ hl2, sharesFrom_eq, foldl_pick _ _ hn hx hid, dget_dset, if_pos rfl]

/-- C17 What is checked: when a tally is returned, every selection share that was used for a reported number, taken from a
mediator share whose guardian id no other share names, has a Chaum-Pedersen proof that is valid for the public key inside
the share, or recovered parts each with a proof valid for the recovery key it names.  Missing for the full claim: the
public key is not compared with the announced one, the recovered parts and their keys are not compared with anything,
and a selection the share leaves out is not noticed. -/
theorem C17_used_shares_checked_partial (s : DM) (maxE : Nat) (ctx : Context) (t : Tally) (m : Manifest)
    (pt : PlaintextTally) (h : s.plaintextTally E maxE ctx t m = .ok (some pt))
    (hg : (s.tallyShares.map (fun e => e.2.guardianId)).Nodup)
    (i : String) (sh : DecShare) (hsh : dget s.tallyShares i = some sh)
    (hn : (sh.allSelections.map (fun x => x.objectId)).Nodup)
    (c : CtContest) (hc : c ∈ t.toCts) (sel : CtSelection) (hsel : sel ∈ c.selections)
    (hdesc : Describes m c.objectId sel.objectId) (x : DecSelection) (hx : x ∈ sh.allSelections)
    (hid : x.objectId = sel.objectId) :
    (∃ pf, x.proof = some pf ∧ x.recovered = none ∧
      pf.isValid E sel.ciphertext sh.publicKey x.share ctx.cryptoExtendedBaseHash = true) ∨
    (∃ parts, x.proof = none ∧ x.recovered = some parts ∧
      ∀ e ∈ parts, e.2.proof.isValid E sel.ciphertext e.2.recoveryKey e.2.share ctx.cryptoExtendedBaseHash = true) := by
  unfold DM.plaintextTally at h
  split at h
  · cases h
  · simp only [decryptTally, bind, Except.bind, pure, Except.pure] at h
    cases hl : decryptContestsLoop E maxE s.tallyShares ctx.cryptoExtendedBaseHash m true t.toCts [] with
    | error e => rw [hl] at h; cases h
    | ok o =>
      cases o with
      | none => rw [hl] at h; cases h
      | some r =>
        have hget := getShares_mem sel.objectId s.tallyShares (i, sh) (mem_of_dget hsh) hg x hx hn hid
        have hval := decryptContestsLoop_valid maxE _ _ m t.toCts [] r hl c hc sel hsel hdesc _ (mem_of_dget hget)
        simp only at hval
        unfold DecSelection.isValid at hval
        cases hp : x.proof with
        | none =>
          cases hr : x.recovered with
          | none => rw [hp, hr] at hval; cases hval
          | some parts =>
            rw [hp, hr] at hval
            exact Or.inr ⟨parts, rfl, rfl, fun e he => List.all_eq_true.1 hval e he⟩
        | some pf =>
          cases hr : x.recovered with
          | none =>
            rw [hp, hr] at hval
            exact Or.inl ⟨pf, rfl, rfl, hval⟩
          | some parts => rw [hp, hr] at hval; cases hval

/-- C17 A guardian that announced itself is counted with the share it handed in first. -/
theorem C17_announced_share_used (ops : List DMOp) (i : String) (k : ElectionPublicKey) (sh : DecShare)
    (bs : Option (List (String × Option DecShare))) (pre post : List DMOp)
    (h : ops = pre ++ [.announce k sh bs] ++ post) (hk : k.ownerId = i)
    (hpre : i ∉ (announcedKeys pre).map (fun k => k.ownerId)) :
    dget (DM.run P ops).tallyShares i = some sh ∧ dget (DM.run P ops).available i = some k := by
  subst h
  induction post using List.reverseRecOn with
  | nil =>
    rw [List.append_nil, DM.run_concat]
    have hnot : k.ownerId ∉ dkeys (DM.run P pre).available := by
      intro hmem
      obtain ⟨k', hk'⟩ := (mem_dkeys_iff _ _).1 hmem
      rw [C48_available_first (P := P) pre k.ownerId] at hk'
      exact hpre (List.mem_map.2 ⟨k', List.mem_of_find?_eq_some hk', by
        have := List.find?_some hk'
        simp only [beq_iff_eq] at this
        rw [this, hk]⟩)
    simp only [DM.step]
    obtain ⟨h1, _, h3, _⟩ := DM.announce_fields (DM.run P pre) k sh bs hnot
    rw [h1, h3, dget_dset, dget_dset, if_pos hk, if_pos hk]
    exact ⟨rfl, rfl⟩
  | append_singleton post op ih =>
    rw [← List.append_assoc, DM.run_concat]
    obtain ⟨ih1, ih2⟩ := ih
    generalize DM.run P (pre ++ [.announce k sh bs] ++ post) = s at ih1 ih2
    have hin : i ∈ dkeys s.tallyShares := (mem_dkeys_iff _ _).2 ⟨sh, ih1⟩
    have hin' : i ∈ dkeys s.available := (mem_dkeys_iff _ _).2 ⟨k, ih2⟩
    cases op with
    | announce k' sh' bs' =>
      simp only [DM.step]
      by_cases hk' : k'.ownerId ∈ dkeys s.available
      · rw [DM.announce_of_mem s k' sh' bs' hk']; exact ⟨ih1, ih2⟩
      · obtain ⟨h1, _, h3, _⟩ := DM.announce_fields s k' sh' bs' hk'
        have hne : k'.ownerId ≠ i := fun h => hk' (h ▸ hin')
        rw [h1, h3, dget_dset, dget_dset, if_neg hne, if_neg hne]
        exact ⟨ih1, ih2⟩
    | announceMissing k' =>
      simp only [DM.step]
      rw [(DM.announceMissing_fields s k').2.1, (DM.announceMissing_fields s k').1]
      exact ⟨ih1, ih2⟩
    | validateMissing ks => exact ⟨ih1, ih2⟩
    | receiveTallyComp c => exact ⟨ih1, ih2⟩
    | receiveBallotComp cs => exact ⟨ih1, ih2⟩
    | reconstructTally t =>
      simp only [DM.step, DM.reconstructTally]
      cases lagrangeForGuardians P (s.available.map (·.2)) with
      | error e => exact ⟨ih1, ih2⟩
      | ok lagrange =>
        refine ⟨?_, ih2⟩
        have keep : ∀ (ms : List (String × ElectionPublicKey)) (shares : List (String × DecShare)),
            dget shares i = some sh →
            dget (reconstructTallyLoop P t lagrange s.compTally ms shares).2 i = some sh := by
          intro ms
          induction ms with
          | nil => exact fun _ h => h
          | cons a ms ih =>
            intro shares hsh
            obtain ⟨id, key⟩ := a
            unfold reconstructTallyLoop
            split
            · exact ih shares hsh
            · rename_i hnm
              cases reconstructShare P key t.objectId t.toCts (filterByMissing id s.compTally) lagrange with
              | error e => exact hsh
              | ok y =>
                refine ih _ ?_
                rw [dget_dset, if_neg, hsh]
                rintro rfl
                exact hnm ((mem_dkeys_iff _ _).2 ⟨sh, hsh⟩)
        exact keep _ _ ih1
    | reconstructBallots bs' =>
      simp only [DM.step]
      rw [(DM.reconstructBallots_fields (P := P) s bs').2.2.1, (DM.reconstructBallots_fields (P := P) s bs').1]
      exact ⟨ih1, ih2⟩

/-! ### Witnesses -/

/-- The three guardians announce themselves; `a` and `b` hand in the shares given. -/
def announceAll (sa sb : DecShare) : Option (List (String × List (String × Nat))) :=
  resultNumbers ((DM.run extraSmall [.announce (toyPair "a" 1).share sa none, .announce (toyPair "b" 2).share sb none,
    .announce (toyPair "c" 3).share (toyShare (toyDTally "sz") (toyPair "c" 3)) none]).plaintextTally toyEnv 12 toyDCtx
    (toyDTally "sz") toyManifest)

/-- The share with all values replaced by 1 and no proof. -/
def DecShare.forge (sh : DecShare) : DecShare := { sh with
  contests := sh.contests.map (fun e => (e.1, { e.2 with
    selections := e.2.selections.map (fun x => (x.1, forgedSelection x.2.objectId x.2.guardianId 1)) })) }

/-- With honest shares the numbers are 2, 1 and 3. -/
example : announceAll (toyShare (toyDTally "sz") (toyPair "a" 1)) (toyShare (toyDTally "sz") (toyPair "b" 2))
    = some [("c", [("sx", 2), ("sy", 1)]), ("d", [("sz", 3)])] := by decide +kernel

/-- C17 does not hold for the mediator: guardian `a` hands in a share without proofs, and wrong numbers are reported. -/
theorem C17_no_proof_fails :
    announceAll (toyShare (toyDTally "sz") (toyPair "a" 1)).forge (toyShare (toyDTally "sz") (toyPair "b" 2))
      = some [("c", [("sx", 4), ("sy", 8)]), ("d", [("sz", 2)])] := by decide +kernel

/-- C17 does not hold for the key: guardian `a` announces one key and hands in a share made and proved with another. -/
theorem C17_other_key_fails :
    announceAll (toyShare (toyDTally "sz") ⟨"a", 1, ⟨9, 16 ^ 9 % 157⟩, []⟩) (toyShare (toyDTally "sz") (toyPair "b" 2))
      = some [("c", [("sx", 3), ("sy", 11)]), ("d", [("sz", 9)])] := by decide +kernel

/-- C49 does not hold down to the selections: guardian `a` hands in a share without any selection, the mediator counts it
as a share, and wrong numbers are reported. -/
theorem C49_missing_selection_share_fails :
    announceAll ⟨"t", "a", (toyPair "a" 1).keyPair.pub, []⟩ (toyShare (toyDTally "sz") (toyPair "b" 2))
      = some [("c", [("sx", 4), ("sy", 8)]), ("d", [("sz", 2)])] := by decide +kernel

/-- C49 The same when `b` hands in a share that names `a` as its guardian: it is put in place of the share of `a`. -/
theorem C49_same_guardian_id_fails :
    announceAll (toyShare (toyDTally "sz") (toyPair "a" 1))
      (toyShare (toyDTally "sz") { toyPair "b" 2 with ownerId := "a" })
      = some [("c", [("sx", 4), ("sy", 8)]), ("d", [("sz", 2)])] := by decide +kernel

/-- C14 does not hold for every valid manifest: when two contests use the same selection id, the shares of honest
guardians are refused. -/
theorem C14_shared_selection_id_fails : sharedIdManifest.isValid = true ∧
    decryptTally toyEnv 12 (toyDTally "sx") (toyPairs.map (fun kp => (kp.ownerId, toyShare (toyDTally "sx") kp)))
      toyDCtx.cryptoExtendedBaseHash sharedIdManifest = .ok none := by
  constructor <;> decide +kernel

/-- C14 With distinct ids the numbers are right. -/
example : resultNumbers (decryptTally toyEnv 12 (toyDTally "sz")
      (toyPairs.map (fun kp => (kp.ownerId, toyShare (toyDTally "sz") kp)))
      toyDCtx.cryptoExtendedBaseHash toyManifest)
    = some [("c", [("sx", 2), ("sy", 1)]), ("d", [("sz", 3)])] := by decide +kernel

end EG
