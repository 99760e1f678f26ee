import Verif.Lemmas.Serialize

/-!
# What the readers of the classes return
-/

namespace EG

/-- Every value that is read has the property. -/
def Reads {α : Type} (dec : Json → R α) (ok : α → Prop) : Prop := ∀ j a, j.Distinct → dec j = .ok a → ok a

theorem bindOk {α β : Type} {x : R α} {f : α → R β} {b : β} : (x >>= f) = .ok b ↔ ∃ a, x = .ok a ∧ f a = .ok b := by
  cases x with
  | error e => simp [bind, Except.bind]
  | ok a => simp [bind, Except.bind]

theorem mapOk {α β : Type} {x : R α} {f : α → β} {b : β} : x.map f = .ok b ↔ ∃ a, x = .ok a ∧ f a = b := by
  cases x with
  | error e => simp [Except.map]
  | ok a => simp [Except.map]

theorem pureOk {α : Type} {a b : α} : (pure a : R α) = .ok b ↔ a = b := by simp [pure, Except.pure]

theorem asObj_reads {j : Json} {o : List (String × Json)} (hj : j.Distinct) (h : asObj j = .ok o) : Keys o ∧ ∀ m ∈ o, m.2.Distinct := by
  cases j with
  | obj kvs =>
    cases h
    simp only [Json.Distinct, distinctMembers_iff] at hj
    exact hj
  | _ => cases h

theorem need_reads {α : Type} {dec : Json → R α} {ok : α → Prop} (hd : Reads dec ok) {o : List (String × Json)}
    (ho : ∀ m ∈ o, m.2.Distinct) {k : String} {a : α} (h : need o k dec = .ok a) : ok a := by
  unfold need at h
  split at h
  · rename_i j hj
    exact hd j a (ho _ (mem_of_dget hj)) h
  · cases h

theorem orElse_reads {α : Type} {dec : Json → R α} {ok : α → Prop} (hd : Reads dec ok) {o : List (String × Json)}
    (ho : ∀ m ∈ o, m.2.Distinct) {k : String} {d a : α} (hdef : ok d) (h : orElse o k d dec = .ok a) : ok a := by
  unfold orElse at h
  split at h
  · rename_i j hj
    exact hd j a (ho _ (mem_of_dget hj)) h
  · cases h; exact hdef

theorem opt_reads {α : Type} {dec : Json → R α} {ok : α → Prop} (hd : Reads dec ok) : Reads (optOf dec) (fun o => ∀ a ∈ o, ok a) := by
  intro j o hj h
  by_cases hn : j = .null
  · subst hn; cases h; intro a ha; cases ha
  · rw [optOf_of_ne hn, mapOk] at h
    obtain ⟨a, ha, rfl⟩ := h
    intro b hb
    cases hb
    exact hd j a hj ha

theorem mapM_reads {α β : Type} {f : α → R β} {l : List α} {r : List β} (h : l.mapM f = .ok r) : List.Forall₂ (fun a b => f a = .ok b) l r := by
  induction l generalizing r with
  | nil => cases h; exact .nil
  | cons a l ih =>
    rw [List.mapM_cons, bindOk] at h
    obtain ⟨b, hb, h⟩ := h
    rw [bindOk] at h
    obtain ⟨bs, hbs, h⟩ := h
    cases h
    exact .cons hb (ih hbs)

theorem list_reads {α : Type} {dec : Json → R α} {ok : α → Prop} (hd : Reads dec ok) : Reads (listOf dec) (fun l => ∀ a ∈ l, ok a) := by
  intro j l hj h
  cases j with
  | arr xs =>
    simp only [Json.Distinct, distinctItems_iff] at hj
    have h' := mapM_reads h
    clear h
    induction h' with
    | nil => intro a ha; cases ha
    | cons h1 _ ih =>
      intro a ha
      rcases List.mem_cons.1 ha with rfl | ha
      · exact hd _ _ (hj _ List.mem_cons_self) h1
      · exact ih (fun x hx => hj x (List.mem_cons_of_mem _ hx)) a ha
  | _ => cases h

theorem dict_reads {α : Type} {dec : Json → R α} {ok : α → Prop} (hd : Reads dec ok) :
    Reads (dictOf dec) (fun l => Keys l ∧ ∀ e ∈ l, ok e.2) := by
  intro j l hj h
  cases j with
  | obj kvs =>
    simp only [Json.Distinct, distinctMembers_iff] at hj
    have h' := mapM_reads h
    clear h
    obtain ⟨hk, hj⟩ := hj
    have hkeys : l.map (·.1) = kvs.map (·.1) := by
      clear hk hj
      induction h' with
      | nil => rfl
      | cons h1 _ ih =>
        obtain ⟨v, -, rfl⟩ := mapOk.1 h1
        rw [List.map_cons, List.map_cons, ih]
    refine ⟨by unfold Keys; rw [hkeys]; exact hk, ?_⟩
    clear hk hkeys
    induction h' with
    | nil => intro a ha; cases ha
    | cons h1 _ ih =>
      obtain ⟨v, hv, rfl⟩ := mapOk.1 h1
      intro a ha
      rcases List.mem_cons.1 ha with rfl | ha
      · exact hd _ _ (hj _ List.mem_cons_self) hv
      · exact ih (fun x hx => hj x (List.mem_cons_of_mem _ hx)) a ha
  | _ => cases h

theorem any_reads {α : Type} (dec : Json → R α) : Reads dec (fun _ => True) := fun _ _ _ _ => trivial

theorem elemQ_reads (P : Params) : Reads (elemQOf P) (fun n => n < P.q) := by
  intro j a _ h
  rw [elemQOf, bindOk] at h
  obtain ⟨n, -, h⟩ := h
  unfold mkQ at h
  split at h
  · cases h; omega
  · cases h

theorem elemP_reads (P : Params) : Reads (elemPOf P) (fun n => n < P.p) := by
  intro j a _ h
  rw [elemPOf, bindOk] at h
  obtain ⟨n, -, h⟩ := h
  unfold mkP at h
  split at h
  · cases h; omega
  · cases h

theorem enum_reads (l : List String) : Reads (enumOf l) (fun s => s ∈ l) := by
  intro j a _ h
  cases j with
  | str s =>
    simp only [enumOf] at h
    split at h
    · cases h; assumption
    · cases h
  | _ => cases h

section
variable (P : Params)

theorem Ciphertext.reads : Reads (Ciphertext.ofJson P) (Ciphertext.Typed P) := by
  intro j a hj h
  simp only [Ciphertext.ofJson, bindOk, pureOk] at h
  obtain ⟨o, ho, x1, h1, x2, h2, rfl⟩ := h
  have ho := (asObj_reads hj ho).2
  exact ⟨need_reads (elemP_reads P) ho h1, need_reads (elemP_reads P) ho h2⟩

theorem HashedCiphertext.reads : Reads (HashedCiphertext.ofJson P) (HashedCiphertext.Typed P) := by
  intro j a hj h
  simp only [HashedCiphertext.ofJson, bindOk, pureOk] at h
  obtain ⟨o, ho, x1, h1, x2, h2, x3, h3, rfl⟩ := h
  have ho := (asObj_reads hj ho).2
  exact need_reads (elemP_reads P) ho h1

theorem DisjProof.reads : Reads (DisjProof.ofJson P) (DisjProof.Typed P) := by
  intro j a hj h
  simp only [DisjProof.ofJson, bindOk, pureOk] at h
  obtain ⟨o, ho, x1, h1, x2, h2, x3, h3, x4, h4, x5, h5, x6, h6, x7, h7, x8, h8, x9, h9, x10, h10, rfl⟩ := h
  have ho := (asObj_reads hj ho).2
  exact ⟨⟨need_reads (elemP_reads P) ho h1, need_reads (elemP_reads P) ho h2, need_reads (elemP_reads P) ho h3,
    need_reads (elemP_reads P) ho h4⟩, need_reads (elemQ_reads P) ho h5, need_reads (elemQ_reads P) ho h6,
    need_reads (elemQ_reads P) ho h7, need_reads (elemQ_reads P) ho h8, need_reads (elemQ_reads P) ho h9⟩

theorem CPProof.reads : Reads (CPProof.ofJson P) (CPProof.Typed P) := by
  intro j a hj h
  simp only [CPProof.ofJson, bindOk, pureOk] at h
  obtain ⟨o, ho, x1, h1, x2, h2, x3, h3, x4, h4, x5, h5, rfl⟩ := h
  have ho := (asObj_reads hj ho).2
  exact ⟨need_reads (elemP_reads P) ho h1, need_reads (elemP_reads P) ho h2, need_reads (elemQ_reads P) ho h3,
    need_reads (elemQ_reads P) ho h4⟩

theorem ConstProof.reads : Reads (ConstProof.ofJson P) (ConstProof.Typed P) := by
  intro j a hj h
  simp only [ConstProof.ofJson, bindOk, pureOk] at h
  obtain ⟨o, ho, x1, h1, x2, h2, x3, h3, x4, h4, x5, h5, x6, h6, rfl⟩ := h
  have ho := (asObj_reads hj ho).2
  exact ⟨need_reads (elemP_reads P) ho h1, need_reads (elemP_reads P) ho h2, need_reads (elemQ_reads P) ho h3,
    need_reads (elemQ_reads P) ho h4⟩

theorem SchnorrProof.reads : Reads (SchnorrProof.ofJson P) (SchnorrProof.Typed P) := by
  intro j a hj h
  simp only [SchnorrProof.ofJson, bindOk, pureOk] at h
  obtain ⟨o, ho, x1, h1, x2, h2, x3, h3, x4, h4, x5, h5, rfl⟩ := h
  have ho := (asObj_reads hj ho).2
  exact ⟨need_reads (elemP_reads P) ho h1, need_reads (elemP_reads P) ho h2, need_reads (elemQ_reads P) ho h3,
    need_reads (elemQ_reads P) ho h4⟩

theorem none_reads {α : Type} (ok : α → Prop) : ∀ a ∈ (none : Option α), ok a := by intro a ha; cases ha

theorem CSelection.reads : Reads (CSelection.ofJson P) (CSelection.Typed P) := by
  intro j a hj h
  simp only [CSelection.ofJson, bindOk, pureOk] at h
  obtain ⟨o, ho, x1, h1, x2, h2, x3, h3, x4, h4, x5, h5, x6, h6, x7, h7, x8, h8, rfl⟩ := h
  have ho := (asObj_reads hj ho).2
  exact ⟨need_reads (elemQ_reads P) ho h3, need_reads (Ciphertext.reads P) ho h4, need_reads (elemQ_reads P) ho h5,
    orElse_reads (opt_reads (elemQ_reads P)) ho (none_reads _) h7, orElse_reads (opt_reads (DisjProof.reads P)) ho (none_reads _) h8⟩

theorem CContest.reads : Reads (CContest.ofJson P) (CContest.Typed P) := by
  intro j a hj h
  simp only [CContest.ofJson, bindOk, pureOk] at h
  obtain ⟨o, ho, x1, h1, x2, h2, x3, h3, x4, h4, x5, h5, x6, h6, x7, h7, x8, h8, x9, h9, rfl⟩ := h
  have ho := (asObj_reads hj ho).2
  exact ⟨need_reads (elemQ_reads P) ho h3, need_reads (list_reads (CSelection.reads P)) ho h4, need_reads (Ciphertext.reads P) ho h5,
    need_reads (elemQ_reads P) ho h6, orElse_reads (opt_reads (elemQ_reads P)) ho (none_reads _) h7,
    orElse_reads (opt_reads (ConstProof.reads P)) ho (none_reads _) h8,
    orElse_reads (opt_reads (HashedCiphertext.reads P)) ho (none_reads _) h9⟩

theorem CBallot.reads_members {o : List (String × Json)} (ho : ∀ m ∈ o, m.2.Distinct) {b : CBallot}
    (h : CBallot.ofMembers P o = .ok b) : b.Typed P := by
  simp only [CBallot.ofMembers, bindOk, pureOk] at h
  obtain ⟨x1, h1, x2, h2, x3, h3, x4, h4, x5, h5, x6, h6, x7, h7, x8, h8, x9, h9, rfl⟩ := h
  exact ⟨need_reads (elemQ_reads P) ho h3, need_reads (elemQ_reads P) ho h4, need_reads (list_reads (CContest.reads P)) ho h5,
    need_reads (elemQ_reads P) ho h6, need_reads (elemQ_reads P) ho h8, orElse_reads (opt_reads (elemQ_reads P)) ho (none_reads _) h9⟩

theorem CBallot.reads : Reads (CBallot.ofJson P) (CBallot.Typed P) := by
  intro j a hj h
  simp only [CBallot.ofJson, bindOk] at h
  obtain ⟨o, ho, h⟩ := h
  exact CBallot.reads_members P (asObj_reads hj ho).2 h

theorem SBallot.reads : Reads (SBallot.ofJson P) (fun b => b.toCBallot.Typed P) := by
  intro j a hj h
  simp only [SBallot.ofJson, bindOk, pureOk] at h
  obtain ⟨o, ho, x1, h1, x2, h2, rfl⟩ := h
  exact CBallot.reads_members P (asObj_reads hj ho).2 h1

theorem ContestData.reads : Reads ContestData.ofJson ContestData.Typed := by
  intro j a hj h
  simp only [ContestData.ofJson, bindOk, pureOk] at h
  obtain ⟨o, ho, x1, h1, x2, h2, x3, h3, rfl⟩ := h
  have ho := (asObj_reads hj ho).2
  intro w hw
  exact (orElse_reads (opt_reads (dict_reads (any_reads strOf))) ho (none_reads _) h3 w hw).1

theorem KeyPair.reads : Reads (KeyPair.ofJson P) (KeyPair.Typed P) := by
  intro j a hj h
  simp only [KeyPair.ofJson, bindOk, pureOk] at h
  obtain ⟨o, ho, x1, h1, x2, h2, rfl⟩ := h
  have ho := (asObj_reads hj ho).2
  exact ⟨need_reads (elemQ_reads P) ho h1, need_reads (elemP_reads P) ho h2⟩

theorem Coefficient.reads : Reads (Coefficient.ofJson P) (Coefficient.Typed P) := by
  intro j a hj h
  simp only [Coefficient.ofJson, bindOk, pureOk] at h
  obtain ⟨o, ho, x1, h1, x2, h2, x3, h3, rfl⟩ := h
  have ho := (asObj_reads hj ho).2
  exact ⟨need_reads (elemQ_reads P) ho h1, need_reads (elemP_reads P) ho h2, need_reads (SchnorrProof.reads P) ho h3⟩

theorem polynomial_reads : Reads (polynomialOf P) (fun p => ∀ c ∈ p, c.Typed P) := by
  intro j a hj h
  simp only [polynomialOf, bindOk] at h
  obtain ⟨o, ho, h⟩ := h
  exact need_reads (list_reads (Coefficient.reads P)) (asObj_reads hj ho).2 h

theorem ElectionPublicKey.reads : Reads (ElectionPublicKey.ofJson P) (ElectionPublicKey.Typed P) := by
  intro j a hj h
  simp only [ElectionPublicKey.ofJson, bindOk, pureOk] at h
  obtain ⟨o, ho, x1, h1, x2, h2, x3, h3, x4, h4, x5, h5, rfl⟩ := h
  have ho := (asObj_reads hj ho).2
  exact ⟨need_reads (elemP_reads P) ho h3, need_reads (list_reads (elemP_reads P)) ho h4,
    need_reads (list_reads (SchnorrProof.reads P)) ho h5⟩

theorem ElectionKeyPair.reads : Reads (ElectionKeyPair.ofJson P) (ElectionKeyPair.Typed P) := by
  intro j a hj h
  simp only [ElectionKeyPair.ofJson, bindOk, pureOk] at h
  obtain ⟨o, ho, x1, h1, x2, h2, x3, h3, x4, h4, rfl⟩ := h
  have ho := (asObj_reads hj ho).2
  exact ⟨need_reads (KeyPair.reads P) ho h3, need_reads (polynomial_reads P) ho h4⟩

theorem ElectionJointKey.reads : Reads (ElectionJointKey.ofJson P) (ElectionJointKey.Typed P) := by
  intro j a hj h
  simp only [ElectionJointKey.ofJson, bindOk, pureOk] at h
  obtain ⟨o, ho, x1, h1, x2, h2, rfl⟩ := h
  have ho := (asObj_reads hj ho).2
  exact ⟨need_reads (elemP_reads P) ho h1, need_reads (elemQ_reads P) ho h2⟩

theorem Backup.reads : Reads (Backup.ofJson P) (Backup.Typed P) := by
  intro j a hj h
  simp only [Backup.ofJson, bindOk, pureOk] at h
  obtain ⟨o, ho, x1, h1, x2, h2, x3, h3, x4, h4, rfl⟩ := h
  exact need_reads (HashedCiphertext.reads P) (asObj_reads hj ho).2 h4

theorem GuardianRecord.reads : Reads (GuardianRecord.ofJson P) (GuardianRecord.Typed P) := by
  intro j a hj h
  simp only [GuardianRecord.ofJson, bindOk, pureOk] at h
  obtain ⟨o, ho, x1, h1, x2, h2, x3, h3, x4, h4, x5, h5, rfl⟩ := h
  have ho := (asObj_reads hj ho).2
  exact ⟨need_reads (elemP_reads P) ho h3, need_reads (list_reads (elemP_reads P)) ho h4,
    need_reads (list_reads (SchnorrProof.reads P)) ho h5⟩

theorem PrivateGuardianRecord.reads : Reads (PrivateGuardianRecord.ofJson P) (PrivateGuardianRecord.Typed P) := by
  intro j a hj h
  simp only [PrivateGuardianRecord.ofJson, bindOk, pureOk] at h
  obtain ⟨o, ho, x1, h1, x2, h2, x3, h3, x4, h4, x5, h5, x6, h6, rfl⟩ := h
  have ho := (asObj_reads hj ho).2
  exact ⟨need_reads (ElectionKeyPair.reads P) ho h2, need_reads (dict_reads (Backup.reads P)) ho h3,
    need_reads (dict_reads (ElectionPublicKey.reads P)) ho h4, need_reads (dict_reads (Backup.reads P)) ho h5,
    (need_reads (dict_reads (any_reads Verification.ofJson)) ho h6).1⟩

theorem lagrange_reads : Reads (lagrangeOf P) (fun d => Keys d ∧ ∀ e ∈ d, e.2 < P.q) := by
  intro j a hj h
  simp only [lagrangeOf, bindOk] at h
  obtain ⟨o, ho, h⟩ := h
  exact need_reads (dict_reads (elemQ_reads P)) (asObj_reads hj ho).2 h

theorem ContextFile.reads : Reads (ContextFile.ofJson P) (fun c => c.context.Typed P ∧ ∀ d ∈ c.extendedData, Keys d) := by
  intro j a hj h
  simp only [ContextFile.ofJson, bindOk, pureOk] at h
  obtain ⟨o, ho, x1, h1, x2, h2, x3, h3, x4, h4, x5, h5, x6, h6, x7, h7, x8, h8, x9, h9, rfl⟩ := h
  have ho := (asObj_reads hj ho).2
  exact ⟨⟨need_reads (elemP_reads P) ho h3, need_reads (elemQ_reads P) ho h4, need_reads (elemQ_reads P) ho h5,
    need_reads (elemQ_reads P) ho h6, need_reads (elemQ_reads P) ho h7⟩,
    fun d hd => (orElse_reads (opt_reads (dict_reads (any_reads strOf))) ho (none_reads _) h8 d hd).1⟩

theorem TallySelection.reads (hp : 1 < P.p) : Reads (TallySelection.ofJson P) (TallySelection.Typed P) := by
  intro j a hj h
  simp only [TallySelection.ofJson, bindOk, pureOk] at h
  obtain ⟨o, ho, x1, h1, x2, h2, x3, h3, x4, h4, rfl⟩ := h
  have ho := (asObj_reads hj ho).2
  exact ⟨need_reads (elemQ_reads P) ho h3, orElse_reads (Ciphertext.reads P) ho ⟨hp, hp⟩ h4⟩

theorem TallyContest.reads (hp : 1 < P.p) : Reads (TallyContest.ofJson P) (TallyContest.Typed P) := by
  intro j a hj h
  simp only [TallyContest.ofJson, bindOk, pureOk] at h
  obtain ⟨o, ho, x1, h1, x2, h2, x3, h3, x4, h4, rfl⟩ := h
  have ho := (asObj_reads hj ho).2
  exact ⟨need_reads (elemQ_reads P) ho h3, need_reads (dict_reads (TallySelection.reads P hp)) ho h4⟩

theorem PublishedTally.reads (hp : 1 < P.p) : Reads (PublishedTally.ofJson P) (PublishedTally.Typed P) := by
  intro j a hj h
  simp only [PublishedTally.ofJson, bindOk, pureOk] at h
  obtain ⟨o, ho, x1, h1, x2, h2, rfl⟩ := h
  exact need_reads (dict_reads (TallyContest.reads P hp)) (asObj_reads hj ho).2 h2

theorem CompSelection.reads : Reads (CompSelection.ofJson P) (CompSelection.Typed P) := by
  intro j a hj h
  simp only [CompSelection.ofJson, bindOk, pureOk] at h
  obtain ⟨o, ho, x1, h1, x2, h2, x3, h3, x4, h4, x5, h5, x6, h6, rfl⟩ := h
  have ho := (asObj_reads hj ho).2
  exact ⟨need_reads (elemP_reads P) ho h4, need_reads (elemP_reads P) ho h5, need_reads (CPProof.reads P) ho h6⟩

theorem DecSelection.reads : Reads (DecSelection.ofJson P) (DecSelection.Typed P) := by
  intro j a hj h
  simp only [DecSelection.ofJson, bindOk, pureOk] at h
  obtain ⟨o, ho, x1, h1, x2, h2, x3, h3, x4, h4, x5, h5, rfl⟩ := h
  have ho := (asObj_reads hj ho).2
  exact ⟨need_reads (elemP_reads P) ho h3, orElse_reads (opt_reads (CPProof.reads P)) ho (none_reads _) h4,
    orElse_reads (opt_reads (dict_reads (CompSelection.reads P))) ho (none_reads _) h5⟩

theorem PTSelection.reads : Reads (PTSelection.ofJson P) (PTSelection.Typed P) := by
  intro j a hj h
  simp only [PTSelection.ofJson, bindOk, pureOk] at h
  obtain ⟨o, ho, x1, h1, x2, h2, x3, h3, x4, h4, x5, h5, rfl⟩ := h
  have ho := (asObj_reads hj ho).2
  exact ⟨need_reads (elemP_reads P) ho h3, need_reads (Ciphertext.reads P) ho h4, need_reads (list_reads (DecSelection.reads P)) ho h5⟩

theorem PTContest.reads : Reads (PTContest.ofJson P) (PTContest.Typed P) := by
  intro j a hj h
  simp only [PTContest.ofJson, bindOk, pureOk] at h
  obtain ⟨o, ho, x1, h1, x2, h2, rfl⟩ := h
  exact need_reads (dict_reads (PTSelection.reads P)) (asObj_reads hj ho).2 h2

theorem PlaintextTally.reads : Reads (PlaintextTally.ofJson P) (PlaintextTally.Typed P) := by
  intro j a hj h
  simp only [PlaintextTally.ofJson, bindOk, pureOk] at h
  obtain ⟨o, ho, x1, h1, x2, h2, rfl⟩ := h
  exact need_reads (dict_reads (PTContest.reads P)) (asObj_reads hj ho).2 h2

end

theorem GeopoliticalUnit.typed : Reads GeopoliticalUnit.ofJson (fun u => u.type ∈ reportingUnitTypes) := by
  intro j a hj h
  simp only [GeopoliticalUnit.ofJson, bindOk, pureOk] at h
  obtain ⟨o, ho, x1, h1, x2, h2, x3, h3, x4, h4, rfl⟩ := h
  exact need_reads (enum_reads reportingUnitTypes) (asObj_reads hj ho).2 h3

theorem ContestDescription.typed : Reads ContestDescription.ofJson (fun c => c.primaryPartyIds = none) := by
  intro j a hj h
  simp only [ContestDescription.ofJson, bindOk, pureOk] at h
  obtain ⟨o, ho, x1, h1, x2, h2, x3, h3, x4, h4, x5, h5, x6, h6, x7, h7, x8, h8, x9, h9, x10, h10, rfl⟩ := h
  rfl

theorem Manifest.typed : Reads Manifest.ofJson (fun m => m.Typed ∧ ∀ c ∈ m.contests, c.primaryPartyIds = none) := by
  intro j a hj h
  simp only [Manifest.ofJson, bindOk, pureOk] at h
  obtain ⟨o, ho, x1, h1, x2, h2, x3, h3, x4, h4, x5, h5, x6, h6, x7, h7, x8, h8, x9, h9, x10, h10, x11, h11, x12, h12, rfl⟩ := h
  have ho := (asObj_reads hj ho).2
  exact ⟨⟨need_reads (enum_reads specVersions) ho h2, need_reads (enum_reads electionTypes) ho h3,
    need_reads (list_reads GeopoliticalUnit.typed) ho h6⟩, need_reads (list_reads ContestDescription.typed) ho h9⟩

end EG
