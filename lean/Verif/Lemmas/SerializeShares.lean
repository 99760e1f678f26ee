import Verif.Model.SerializeShares
import Verif.Spec.SerializeShares
import Verif.Lemmas.SerializeRead
import Verif.Lemmas.ChaumPedersen
import Verif.Lemmas.Tally
import Verif.Lemmas.GuiDecryption

/-!
# Shares are written and read back; what the code computes has its elements in range
-/

namespace EG

/-! ### Reading what was written -/

section
variable {P : Params}

theorem DecContest.trip {c : DecContest} (h : c.Typed P) : Trip DecContest.toJson (DecContest.ofJson P) c := by
  have h2 := dict_trip h.2.1 (fun a ha => DecSelection.trip (h.2.2 a ha))
  trip [DecContest.toJson, DecContest.ofJson] [elemQOf_json h.1, h2.1, h2.2.2]

theorem DecShare.trip {s : DecShare} (h : s.Typed P) : Trip DecShare.toJson (DecShare.ofJson P) s := by
  have h2 := dict_trip h.2.1 (fun a ha => DecContest.trip (h.2.2 a ha))
  trip [DecShare.toJson, DecShare.ofJson] [elemPOf_json h.1, h2.1, h2.2.2]

theorem CompContest.trip {c : CompContest} (h : c.Typed P) : Trip CompContest.toJson (CompContest.ofJson P) c := by
  have h2 := dict_trip h.2.1 (fun a ha => CompSelection.trip (h.2.2 a ha))
  trip [CompContest.toJson, CompContest.ofJson] [elemQOf_json h.1, h2.1, h2.2.2]

theorem CompShare.trip {s : CompShare} (h : s.Typed P) : Trip CompShare.toJson (CompShare.ofJson P) s := by
  have h2 := dict_trip h.2.1 (fun a ha => CompContest.trip (h.2.2 a ha))
  trip [CompShare.toJson, CompShare.ofJson] [elemPOf_json h.1, h2.1, h2.2.2]

theorem DecContest.reads : Reads (DecContest.ofJson P) (DecContest.Typed P) := by
  intro j a hj h
  simp only [DecContest.ofJson, bindOk, pureOk] at h
  obtain ⟨o, ho, x1, h1, x2, h2, x3, h3, x4, h4, rfl⟩ := h
  have ho := (asObj_reads hj ho).2
  exact ⟨need_reads (elemQ_reads P) ho h3, need_reads (dict_reads (DecSelection.reads P)) ho h4⟩

theorem DecShare.reads : Reads (DecShare.ofJson P) (DecShare.Typed P) := by
  intro j a hj h
  simp only [DecShare.ofJson, bindOk, pureOk] at h
  obtain ⟨o, ho, x1, h1, x2, h2, x3, h3, x4, h4, rfl⟩ := h
  have ho := (asObj_reads hj ho).2
  exact ⟨need_reads (elemP_reads P) ho h3, need_reads (dict_reads DecContest.reads) ho h4⟩

theorem CompContest.reads : Reads (CompContest.ofJson P) (CompContest.Typed P) := by
  intro j a hj h
  simp only [CompContest.ofJson, bindOk, pureOk] at h
  obtain ⟨o, ho, x1, h1, x2, h2, x3, h3, x4, h4, x5, h5, rfl⟩ := h
  have ho := (asObj_reads hj ho).2
  exact ⟨need_reads (elemQ_reads P) ho h4, need_reads (dict_reads (CompSelection.reads P)) ho h5⟩

theorem CompShare.reads : Reads (CompShare.ofJson P) (CompShare.Typed P) := by
  intro j a hj h
  simp only [CompShare.ofJson, bindOk, pureOk] at h
  obtain ⟨o, ho, x1, h1, x2, h2, x3, h3, x4, h4, x5, h5, rfl⟩ := h
  have ho := (asObj_reads hj ho).2
  exact ⟨need_reads (elemP_reads P) ho h4, need_reads (dict_reads CompContest.reads) ho h5⟩

end

/-! ### Dicts -/

/-- A dict with values of a kind. -/
def DictOf {α : Type} (p : α → Prop) (d : List (String × α)) : Prop := Keys d ∧ ∀ e ∈ d, p e.2

theorem DictOf.nil {α : Type} (p : α → Prop) : DictOf p [] := ⟨List.nodup_nil, by simp⟩

theorem DictOf.dset {α : Type} {p : α → Prop} {d : List (String × α)} (h : DictOf p d) (k : String) {v : α} (hv : p v) :
    DictOf p (dset d k v) := by
  refine ⟨dset_nodup h.1 k v, fun e he => ?_⟩
  rcases mem_dset he with h' | h'
  · rw [h']; exact hv
  · exact h.2 e h'

theorem DictOf.get {α : Type} {p : α → Prop} {d : List (String × α)} (h : DictOf p d) {k : String} {v : α} (hg : dget d k = some v) : p v :=
  h.2 _ (mem_of_dget hg)

theorem DictOf.foldl {α β : Type} {p : α → Prop} {f : List (String × α) → β → List (String × α)} {l : List β}
    (hf : ∀ d, ∀ b ∈ l, DictOf p d → DictOf p (f d b)) {d : List (String × α)} (h : DictOf p d) : DictOf p (l.foldl f d) := by
  induction l generalizing d with
  | nil => exact h
  | cons b l ih => exact ih (fun d b' hb' => hf d b' (List.mem_cons_of_mem _ hb')) (hf d b List.mem_cons_self h)

theorem DictOf.foldlM {α β : Type} {p : α → Prop} {f : List (String × α) → β → R (List (String × α))} {l : List β}
    (hf : ∀ d, ∀ b ∈ l, ∀ r, DictOf p d → f d b = .ok r → DictOf p r) {d r : List (String × α)} (h : DictOf p d)
    (hr : l.foldlM f d = .ok r) : DictOf p r := by
  induction l generalizing d with
  | nil => cases hr; exact h
  | cons b l ih =>
    rw [List.foldlM_cons, bindOk] at hr
    obtain ⟨d', h1, h2⟩ := hr
    exact ih (fun d b' hb' => hf d b' (List.mem_cons_of_mem _ hb')) (hf d b List.mem_cons_self d' h h1) h2

theorem collectById_dict {α : Type} {p : α → Prop} {key : α → String} {xs : List (Option α)} (hx : ∀ x ∈ xs, ∀ a ∈ x, p a)
    {d r : List (String × α)} (h : DictOf p d) (hr : collectById key xs d = some r) : DictOf p r := by
  induction xs generalizing d with
  | nil => cases hr; exact h
  | cons x xs ih =>
    cases x with
    | none => cases hr
    | some a =>
      exact ih (fun x hx' => hx x (List.mem_cons_of_mem _ hx')) (h.dset _ (hx _ List.mem_cons_self a rfl)) hr

/-! ### Shares -/

variable {E : Env}

theorem cp_typed {pf : CPProof} {c : Ciphertext} {k m q : Nat} (hv : E.P.Valid) (h : pf.isValid E c k m q = true) :
    pf.Typed E.P ∧ m < E.P.p ∧ k < E.P.p := by
  obtain ⟨h1, h2, h3, h4, h5, h6, h7, h8, -⟩ := (CPProof.isValid_iff hv pf c k m q).1 h
  have hl : ∀ x, isValidResidue E.P x = true → x < E.P.p := fun x hx => ((isValidResidue_iff hv x).1 hx).1
  exact ⟨⟨hl _ h5, hl _ h6, h7, h8⟩, hl _ h4, hl _ h3⟩

theorem shareForSelection_typed (hv : E.P.Valid) {kp : ElectionKeyPair} {s : CtSelection} {ctx : Context} {seed : Nat} {d : DecSelection}
    (h : shareForSelection E kp s ctx seed = some d) : d.Typed E.P := by
  simp only [shareForSelection] at h
  split at h
  · rename_i hval
    cases h
    obtain ⟨h1, h2, -⟩ := cp_typed hv hval
    refine ⟨h2, fun p hp => ?_, fun d hd => (by cases hd)⟩
    cases hp
    exact h1
  · cases h

theorem schedule_forall {α β : Type} {up : Bool} {f : α → Option β} {l : List α} {p : β → Prop} (h : ∀ a ∈ l, ∀ b ∈ f a, p b) :
    ∀ x ∈ schedule up f l, ∀ a ∈ x, p a := by
  intro x hx a ha
  unfold schedule at hx
  split at hx
  · obtain ⟨y, hy, rfl⟩ := List.mem_map.1 hx
    exact h y hy a ha
  · cases hx

theorem shareForContests_typed (hv : E.P.Valid) {up : Bool} {kp : ElectionKeyPair} {oid : String} {cs : List CtContest} {ctx : Context}
    {seeds : Nat → Nat → Nat} {sh : DecShare} (hk : kp.keyPair.pub < E.P.p) (hcs : ∀ c ∈ cs, c.descriptionHash < E.P.q)
    (h : shareForContests E up kp oid cs ctx seeds = some sh) : sh.Typed E.P := by
  simp only [shareForContests, Option.map_eq_some_iff] at h
  obtain ⟨d, hd, rfl⟩ := h
  refine ⟨hk, collectById_dict (p := DecContest.Typed E.P) (fun x hx c hc => ?_) (DictOf.nil _) hd⟩
  obtain ⟨e, he, rfl⟩ := List.mem_map.1 hx
  simp only [Option.mem_def, shareForContest, Option.map_eq_some_iff] at hc
  obtain ⟨d', hd', rfl⟩ := hc
  refine ⟨hcs _ ?_, collectById_dict (schedule_forall (p := DecSelection.Typed E.P) fun a _ b hb => shareForSelection_typed hv hb)
    (DictOf.nil _) hd'⟩
  obtain ⟨_, -, hi⟩ := List.mem_zipIdx (x := e.1) (i := e.2) he
  rw [hi]
  exact List.getElem_mem _

theorem compForSelection_typed (hv : E.P.Valid) {co : Nat} {a m : ElectionPublicKey} {s : CtSelection} {ctx : Context} {seed : Nat}
    {d : CompSelection} (h : compForSelection E co a m s ctx seed = some d) : d.Typed E.P := by
  simp only [compForSelection] at h
  split at h
  · rename_i hval
    cases h
    obtain ⟨h1, h2, h3⟩ := cp_typed hv hval
    exact ⟨h2, h3, h1⟩
  · cases h

theorem compForContests_typed (hv : E.P.Valid) {up : Bool} {co : Nat} {a m : ElectionPublicKey} {oid : String} {cs : List CtContest}
    {ctx : Context} {seeds : Nat → Nat → Nat} {sh : CompShare} (hk : a.key < E.P.p) (hcs : ∀ c ∈ cs, c.descriptionHash < E.P.q)
    (h : compForContests E up co a m oid cs ctx seeds = some sh) : sh.Typed E.P := by
  simp only [compForContests, Option.map_eq_some_iff] at h
  obtain ⟨d, hd, rfl⟩ := h
  refine ⟨hk, collectById_dict (p := CompContest.Typed E.P) (fun x hx c hc => ?_) (DictOf.nil _) hd⟩
  obtain ⟨e, he, rfl⟩ := List.mem_map.1 hx
  simp only [Option.mem_def, compForContest, Option.map_eq_some_iff] at hc
  obtain ⟨d', hd', rfl⟩ := hc
  refine ⟨hcs _ ?_, collectById_dict (schedule_forall (p := CompSelection.Typed E.P) fun a _ b hb => compForSelection_typed hv hb)
    (DictOf.nil _) hd'⟩
  obtain ⟨_, -, hi⟩ := List.mem_zipIdx (x := e.1) (i := e.2) he
  rw [hi]
  exact List.getElem_mem _

/-! ### Reconstructed shares -/

theorem mapM_dict {α β : Type} {p : β → Prop} {f : String × α → R (String × β)} {l : List (String × α)} {r : List (String × β)}
    (hk : Keys l) (hf : ∀ a ∈ l, ∀ b, f a = .ok b → b.1 = a.1 ∧ p b.2) (h : l.mapM f = .ok r) : DictOf p r := by
  have hall := mapM_reads h
  have : r.map (·.1) = l.map (·.1) ∧ ∀ e ∈ r, p e.2 := by
    clear hk h
    induction hall with
    | nil => exact ⟨rfl, by simp⟩
    | cons h1 _ ih =>
      obtain ⟨i1, i2⟩ := ih (fun a ha => hf a (List.mem_cons_of_mem _ ha))
      obtain ⟨j1, j2⟩ := hf _ List.mem_cons_self _ h1
      refine ⟨by rw [List.map_cons, List.map_cons, i1, j1], fun e he => ?_⟩
      rcases List.mem_cons.1 he with rfl | he
      · exact j2
      · exact i2 e he
  refine ⟨?_, this.2⟩
  unfold Keys
  rw [this.1]
  exact hk

theorem dgetR_ok {α : Type} {d : List (String × α)} {k : String} {v : α} (h : dgetR d k = .ok v) : dget d k = some v := by
  unfold dgetR at h
  split at h
  · cases h; assumption
  · cases h

theorem reconstructLoop_typed (hp : 1 < E.P.p) {mid : String} {contestShares : List (String × CompContest)} {lagrange : List (String × Nat)}
    (hc : DictOf (CompContest.Typed E.P) contestShares) {ss : List CtSelection} {d r : List (String × DecSelection)}
    (hd : DictOf (DecSelection.Typed E.P) d) (h : reconstructLoop E.P mid contestShares lagrange ss d = .ok r) :
    DictOf (DecSelection.Typed E.P) r := by
  induction ss generalizing d with
  | nil => cases h; exact hd
  | cons s ss ih =>
    simp only [reconstructLoop, bindOk] at h
    obtain ⟨comps, h1, pows, -, h3⟩ := h
    refine ih (hd.dset _ ⟨multPs_lt hp _, fun p hp => (by cases hp), fun x hx => ?_⟩) h3
    cases hx
    refine mapM_dict (p := CompSelection.Typed E.P) hc.1 (fun a ha b hb => ?_) h1
    rw [bindOk] at hb
    obtain ⟨v, hv, hb⟩ := hb
    cases hb
    exact ⟨rfl, (hc.2 a ha).2.2 (s.objectId, v) (mem_of_dget (dgetR_ok hv))⟩

theorem reconstructShare_typed (hp : 1 < E.P.p) {k : ElectionPublicKey} {oid : String} {cs : List CtContest} {shares : List (String × CompShare)}
    {lagrange : List (String × Nat)} {sh : DecShare} (hk : k.key < E.P.p) (hcs : ∀ c ∈ cs, c.descriptionHash < E.P.q)
    (hs : DictOf (CompShare.Typed E.P) shares) (h : reconstructShare E.P k oid cs shares lagrange = .ok sh) : sh.Typed E.P := by
  simp only [reconstructShare, bindOk, pureOk] at h
  obtain ⟨d, hd, rfl⟩ := h
  refine ⟨hk, DictOf.foldlM (p := DecContest.Typed E.P) (fun d c hc r hd hr => ?_) (DictOf.nil _) hd⟩
  simp only [bindOk, pureOk] at hr
  obtain ⟨x, hx, rfl⟩ := hr
  refine hd.dset _ ?_
  simp only [reconstructContest, bindOk, pureOk] at hx
  obtain ⟨css, h1, ss, h2, rfl⟩ := hx
  refine ⟨hcs c hc, reconstructLoop_typed hp (mapM_dict (p := CompContest.Typed E.P) hs.1 (fun a ha b hb => ?_) h1) (DictOf.nil _) h2⟩
  rw [bindOk] at hb
  obtain ⟨v, hv, hb⟩ := hb
  cases hb
  exact ⟨rfl, (hs.2 a ha).2.2 (c.objectId, v) (mem_of_dget (dgetR_ok hv))⟩

/-! ### Tallies -/

theorem ctMul_typed (hp : 1 < E.P.p) (a b : Ciphertext) : (ctMul E.P a b).Typed E.P := ⟨multPs_lt hp _, multPs_lt hp _⟩

theorem newTally_typed (hp : 1 < E.P.p) (hq : 0 < E.P.q) (id : String) (im : InternalManifest) :
    DictOf (TallyContest.Typed E.P) (newTally E id im).contests := by
  refine DictOf.foldl (fun d c _ hd => hd.dset _ ⟨Nat.mod_lt _ hq, ?_⟩) (DictOf.nil _)
  exact DictOf.foldl (p := TallySelection.Typed E.P) (fun d s _ hd => hd.dset _ ⟨Nat.mod_lt _ hq, hp, hp⟩) (DictOf.nil _)

theorem executeAccumulate_typed (hp : 1 < E.P.p) {up : Bool} {d : BatchDict} {tcs : List (String × TallyContest)}
    (h : DictOf (TallyContest.Typed E.P) tcs) : DictOf (TallyContest.Typed E.P) (executeAccumulate E.P up d tcs) := by
  constructor
  · unfold Keys executeAccumulate
    rw [List.map_map]
    exact h.1
  · intro e he
    simp only [executeAccumulate] at he
    obtain ⟨tc, htc, rfl⟩ := List.mem_map.1 he
    obtain ⟨h1, h2, h3⟩ := h.2 tc htc
    refine ⟨h1, ?_, ?_⟩
    · unfold Keys
      rw [List.map_map]
      have hm : ∀ {f : String × TallySelection → String × TallySelection} (l : List (String × TallySelection)),
          (∀ e, (f e).1 = e.1) → l.map ((fun x => x.1) ∘ f) = l.map (fun x => x.1) := fun l hf => List.map_congr_left (fun e _ => hf e)
      rw [hm _ (fun e => by split <;> rfl)]
      exact h2
    · intro s hs
      obtain ⟨s', hs', rfl⟩ := List.mem_map.1 hs
      have := h3 s' hs'
      split
      · exact this
      · exact ⟨this.1, ctMul_typed hp _ _⟩

theorem getTally_typed (hp : 1 < E.P.p) (hq : 0 < E.P.q) {m : Manifest} {ctx : Context} {bs : List SBallot} {v : Bool} {t : Tally}
    (h : getTally E m ctx bs v = .ok t) : DictOf (TallyContest.Typed E.P) t.contests := by
  simp only [getTally, bindOk] at h
  obtain ⟨im, -, h⟩ := h
  unfold Tally.batchAppend Tally.batchAppendIter at h
  cases hb : batchLoop E im ctx v bs (newTally E "election-results" im) [] with
  | mk r t' =>
    rw [hb] at h
    cases r with
    | error e => cases h
    | ok d =>
      cases h
      refine executeAccumulate_typed hp ?_
      have := batchLoop_contests (E := E) (v := v) (ctx := ctx) (m := im) bs (newTally E "election-results" im) []
      rw [hb] at this
      simp only at this
      rw [this]
      exact newTally_typed hp hq _ _

/-! ### Decryption -/

/-- The elements of some ciphertexts. -/
def CtsTyped (P : Params) (cs : List CtContest) : Prop := ∀ c ∈ cs, c.descriptionHash < P.q ∧ ∀ s ∈ c.selections, s.ciphertext.Typed P

theorem getShares_typed {P : Params} {shares : List (String × DecShare)} (h : ∀ e ∈ shares, e.2.Typed P) (sid : String) :
    ∀ x ∈ getSharesForSelection sid shares, x.2.2.Typed P := by
  have hfrom : ∀ (sh : DecShare) (d : List (String × (Nat × DecSelection))), sh.Typed P → (∀ x ∈ d, x.2.2.Typed P) →
      ∀ x ∈ sharesFrom sid sh d, x.2.2.Typed P := by
    intro sh d hsh hd
    unfold sharesFrom
    have : ∀ (cs : List (String × DecContest)), (∀ c ∈ cs, c.2.Typed P) → ∀ d : List (String × (Nat × DecSelection)),
        (∀ x ∈ d, x.2.2.Typed P) → ∀ x ∈ cs.foldl (fun d c => c.2.selections.foldl (fun d s =>
          if s.2.objectId = sid then dset d sh.guardianId (sh.publicKey, s.2) else d) d) d, x.2.2.Typed P := by
      intro cs hcs
      induction cs with
      | nil => exact fun d hd => hd
      | cons c cs ih =>
        intro d hd
        refine ih (fun c' hc' => hcs c' (List.mem_cons_of_mem _ hc')) _ ?_
        have : ∀ (ss : List (String × DecSelection)), (∀ s ∈ ss, s.2.Typed P) → ∀ d : List (String × (Nat × DecSelection)),
            (∀ x ∈ d, x.2.2.Typed P) → ∀ x ∈ ss.foldl (fun d s =>
              if s.2.objectId = sid then dset d sh.guardianId (sh.publicKey, s.2) else d) d, x.2.2.Typed P := by
          intro ss hss
          induction ss with
          | nil => exact fun d hd => hd
          | cons s ss ih =>
            intro d hd
            refine ih (fun s' hs' => hss s' (List.mem_cons_of_mem _ hs')) _ ?_
            simp only
            split
            · intro x hx
              rcases mem_dset hx with h' | h'
              · rw [h']; exact hss s List.mem_cons_self
              · exact hd x h'
            · exact hd
        exact this _ (hcs c List.mem_cons_self).2.2 d hd
    exact this _ hsh.2.2 d hd
  unfold getSharesForSelection
  have : ∀ d : List (String × (Nat × DecSelection)), (∀ x ∈ d, x.2.2.Typed P) →
      ∀ x ∈ shares.foldl (fun d sh => sharesFrom sid sh.2 d) d, x.2.2.Typed P := by
    induction shares with
    | nil => exact fun d hd => hd
    | cons s ss ih =>
      intro d hd
      exact ih (fun e he => h e (List.mem_cons_of_mem _ he)) _ (hfrom s.2 d (h s List.mem_cons_self) hd)
  exact this [] (by simp)

theorem decryptSelection_typed (hp : 1 < E.P.p) {maxE : Nat} {s : CtSelection} {shares : List (String × (Nat × DecSelection))} {bh : Nat}
    {sup : Bool} {p : PTSelection} (hs : s.ciphertext.Typed E.P) (hsh : ∀ x ∈ shares, x.2.2.Typed E.P)
    (h : decryptSelectionWithShares E maxE s shares bh sup = .ok (some p)) : p.Typed E.P := by
  unfold decryptSelectionWithShares at h
  split at h
  · cases h
  · simp only [bindOk, pureOk] at h
    obtain ⟨v, hv, t, -, h⟩ := h
    cases h
    refine ⟨?_, hs, fun d hd => ?_⟩
    · simp only [divP, bindOk, pureOk] at hv
      obtain ⟨i, -, rfl⟩ := hv
      exact multPs_lt hp _
    · obtain ⟨x, hx, rfl⟩ := List.mem_map.1 hd
      exact hsh x hx

theorem decryptContests_typed (hp : 1 < E.P.p) {maxE : Nat} {shares : List (String × DecShare)} {bh : Nat} {m : Manifest} {rm : Bool}
    (hsh : ∀ e ∈ shares, e.2.Typed E.P) {cs : List CtContest} (hcs : CtsTyped E.P cs) {d r : List (String × PTContest)}
    (hd : DictOf (PTContest.Typed E.P) d) (h : decryptContestsLoop E maxE shares bh m rm cs d = .ok (some r)) :
    DictOf (PTContest.Typed E.P) r := by
  induction cs generalizing d with
  | nil => cases h; exact hd
  | cons c cs ih =>
    have hcs' : CtsTyped E.P cs := fun c hc => hcs c (List.mem_cons_of_mem _ hc)
    unfold decryptContestsLoop at h
    split at h
    · exact ih hcs' hd h
    · rw [bindOk] at h
      obtain ⟨p, hp1, hp2⟩ := h
      cases p with
      | none => cases hp2
      | some p =>
        refine ih hcs' (hd.dset _ ?_) hp2
        simp only [decryptContestWithShares, bindOk, pureOk] at hp1
        obtain ⟨o, ho, hp1⟩ := hp1
        cases o with
        | none => cases hp1
        | some o =>
          cases hp1
          have : ∀ (ss : List CtSelection), (∀ s ∈ ss, s.ciphertext.Typed E.P) → ∀ d o : List (String × PTSelection),
              ∀ ids, DictOf (PTSelection.Typed E.P) d → decryptSelectionsLoop E maxE shares bh ids rm ss d = .ok (some o) →
              DictOf (PTSelection.Typed E.P) o := by
            intro ss hss
            induction ss with
            | nil => intro d o ids hd h; cases h; exact hd
            | cons s ss ih =>
              intro d o ids hd h
              have hss' : ∀ s ∈ ss, s.ciphertext.Typed E.P := fun s hs => hss s (List.mem_cons_of_mem _ hs)
              unfold decryptSelectionsLoop at h
              split at h
              · exact ih hss' d o ids hd h
              · rw [bindOk] at h
                obtain ⟨p, hp1, hp2⟩ := h
                cases p with
                | none => cases hp2
                | some p =>
                  exact ih hss' _ o ids (hd.dset _ (decryptSelection_typed hp (hss s List.mem_cons_self) (getShares_typed hsh _) hp1)) hp2
          exact this c.selections (hcs c List.mem_cons_self).2 [] o _ (DictOf.nil _) ho

theorem lagrange_typed {ks : List ElectionPublicKey} {r : List (String × Nat)}
    (hq1 : 1 < E.P.q) (h : lagrangeForGuardians E.P ks = .ok r) : DictOf (fun n => n < E.P.q) r := by
  refine DictOf.foldlM (fun d k _ r hd hr => ?_) (DictOf.nil _) h
  simp only [bindOk, pureOk] at hr
  obtain ⟨l, hl, rfl⟩ := hr
  refine hd.dset _ ?_
  simp only [lagrangeForGuardian, computeLagrange, divQ, bindOk, pureOk] at hl
  obtain ⟨i, -, rfl⟩ := hl
  exact multQs_lt hq1 _

end EG
