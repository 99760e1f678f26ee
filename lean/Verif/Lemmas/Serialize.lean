import Verif.Model.Serialize
import Verif.Spec.Serialize
import Verif.Lemmas.JsonRead
import Verif.Lemmas.Polynomial

/-!
# Writing and reading the classes
-/

namespace EG

/-! ### Reading what was written -/

/-- A value is written as plain JSON and read back. -/
def Trip {α : Type} (enc : α → Json) (dec : Json → R α) (a : α) : Prop := (enc a).Plain ∧ enc a ≠ .null ∧ dec (enc a) = .ok a

theorem need_cons {α : Type} (k' k : String) (j : Json) (o : List (String × Json)) (dec : Json → R α) :
    need ((k', j) :: o) k dec = if k' = k then dec j else need o k dec := by
  simp only [need, dget_cons]
  by_cases h : k' = k <;> simp [h]

theorem orElse_cons {α : Type} (k' k : String) (j : Json) (o : List (String × Json)) (d : α) (dec : Json → R α) :
    orElse ((k', j) :: o) k d dec = if k' = k then dec j else orElse o k d dec := by
  simp only [orElse, dget_cons]
  by_cases h : k' = k <;> simp [h]

theorem bigOf_elem (n : Nat) : bigOf (elemJson n) = .ok (n : Int) := by
  simp [bigOf, elemJson, hexToInt_toHex, Except.map]

theorem elemQOf_json {P : Params} {n : Nat} (h : n < P.q) : elemQOf P (elemJson n) = .ok n := by
  simp [elemQOf, bigOf_elem, bind, Except.bind, mkQ, h]

theorem elemPOf_json {P : Params} {n : Nat} (h : n < P.p) : elemPOf P (elemJson n) = .ok n := by
  simp [elemPOf, bigOf_elem, bind, Except.bind, mkP, h]

theorem bigNatOf_json (n : Nat) : bigNatOf (elemJson n) = .ok n := by
  simp [bigNatOf, bigOf_elem, bind, Except.bind, pure, Except.pure]

theorem natOf_json (n : Nat) : natOf (.int n) = .ok n := by
  simp [natOf, intOf, bind, Except.bind, pure, Except.pure]

theorem charsOf_json (l : List Char) : charsOf (.str (String.ofList l)) = .ok l := by
  simp [charsOf, strOf, Except.map]

theorem optOf_of_ne {α : Type} {dec : Json → R α} {j : Json} (h : j ≠ .null) : optOf dec j = (dec j).map some := by
  cases j <;> first | rfl | exact absurd rfl h

theorem optOf_json {α : Type} {enc : α → Json} {dec : Json → R α} {o : Option α} (h : ∀ a ∈ o, Trip enc dec a) :
    optOf dec (optJson enc o) = .ok o := by
  cases o with
  | none => rfl
  | some a =>
    obtain ⟨-, h2, h3⟩ := h a rfl
    rw [optJson, optOf_of_ne h2, h3]; rfl

theorem listOf_json {α : Type} {enc : α → Json} {dec : Json → R α} {l : List α} (h : ∀ a ∈ l, Trip enc dec a) :
    listOf dec (listJson enc l) = .ok l := by
  simp only [listOf, listJson]
  induction l with
  | nil => rfl
  | cons a l ih =>
    rw [List.map_cons, List.mapM_cons, (h a List.mem_cons_self).2.2, ih (fun b hb => h b (List.mem_cons_of_mem _ hb))]; rfl

theorem dictOf_json {α : Type} {enc : α → Json} {dec : Json → R α} {l : List (String × α)} (h : ∀ e ∈ l, Trip enc dec e.2) :
    dictOf dec (dictJson enc l) = .ok l := by
  simp only [dictOf, dictJson]
  induction l with
  | nil => rfl
  | cons a l ih =>
    rw [List.map_cons, List.mapM_cons, (h a List.mem_cons_self).2.2, ih (fun b hb => h b (List.mem_cons_of_mem _ hb))]; rfl

theorem elem_plain (n : Nat) : (elemJson n).Plain := by simp [elemJson, Json.Plain]

theorem opt_plain {α : Type} {enc : α → Json} {o : Option α} (h : ∀ a ∈ o, (enc a).Plain) : (optJson enc o).Plain := by
  cases o with
  | none => simp [optJson, Json.Plain]
  | some a => exact h a rfl

theorem list_plain {α : Type} {enc : α → Json} {l : List α} (h : ∀ a ∈ l, (enc a).Plain) : (listJson enc l).Plain := by
  simp only [listJson, Json.Plain, plainItems_iff, List.mem_map]
  rintro x ⟨a, ha, rfl⟩
  exact h a ha

theorem dict_plain {α : Type} {enc : α → Json} {l : List (String × α)} (hk : Keys l) (h : ∀ e ∈ l, (enc e.2).Plain) :
    (dictJson enc l).Plain := by
  simp only [dictJson, Json.Plain, plainMembers_iff, List.mem_map, List.map_map]
  refine ⟨hk, ?_⟩
  rintro x ⟨a, ha, rfl⟩
  exact h a ha

theorem opt_trip {α : Type} {enc : α → Json} {dec : Json → R α} {o : Option α} (h : ∀ a ∈ o, Trip enc dec a) :
    (optJson enc o).Plain ∧ optOf dec (optJson enc o) = .ok o :=
  ⟨opt_plain (fun a ha => (h a ha).1), optOf_json h⟩

theorem list_trip {α : Type} {enc : α → Json} {dec : Json → R α} {l : List α} (h : ∀ a ∈ l, Trip enc dec a) :
    Trip (listJson enc) (listOf dec) l :=
  ⟨list_plain (fun a ha => (h a ha).1), (by simp [listJson]), listOf_json h⟩

theorem dict_trip {α : Type} {enc : α → Json} {dec : Json → R α} {l : List (String × α)} (hk : Keys l)
    (h : ∀ e ∈ l, Trip enc dec e.2) : Trip (dictJson enc) (dictOf dec) l :=
  ⟨dict_plain hk (fun a ha => (h a ha).1), (by simp [dictJson]), dictOf_json h⟩

theorem str_trip (s : String) : Trip .str strOf s := ⟨(by simp [Json.Plain]), (by simp), rfl⟩

theorem int_trip (n : Int) : Trip .int intOf n := ⟨(by simp [Json.Plain]), (by simp), rfl⟩

theorem bool_trip (n : Bool) : Trip .bool boolOf n := ⟨(by simp [Json.Plain]), (by simp), rfl⟩

theorem elemQ_trip {P : Params} {n : Nat} (h : n < P.q) : Trip elemJson (elemQOf P) n :=
  ⟨elem_plain n, (by simp [elemJson]), elemQOf_json h⟩

theorem elemP_trip {P : Params} {n : Nat} (h : n < P.p) : Trip elemJson (elemPOf P) n :=
  ⟨elem_plain n, (by simp [elemJson]), elemPOf_json h⟩

/-- Proves that a value is written as plain JSON and read back, from the same for its parts. -/
macro "trip" "[" defs:Lean.Parser.Tactic.simpLemma,* "]" "[" parts:Lean.Parser.Tactic.simpLemma,* "]" : tactic =>
  `(tactic| (
    refine ⟨?_, ?_, ?_⟩
    · simp [$defs,*, Json.Plain, Json.PlainMembers, elem_plain, $parts,*]
    · simp [$defs,*]
    · simp [$defs,*, asObj, need_cons, orElse_cons, bind, Except.bind, pure, Except.pure, strOf, intOf, boolOf, charsOf_json,
        $parts,*]))

section
variable {P : Params}

theorem Ciphertext.trip {c : Ciphertext} (h : c.Typed P) : Trip Ciphertext.toJson (Ciphertext.ofJson P) c := by
  obtain ⟨h1, h2⟩ := h
  trip [Ciphertext.toJson, Ciphertext.ofJson] [elemPOf_json h1, elemPOf_json h2]

theorem HashedCiphertext.trip {c : HashedCiphertext} (h : c.Typed P) :
    Trip HashedCiphertext.toJson (HashedCiphertext.ofJson P) c := by
  trip [HashedCiphertext.toJson, HashedCiphertext.ofJson] [elemPOf_json h]

theorem DisjProof.trip {p : DisjProof} (h : p.Typed P) : Trip DisjProof.toJson (DisjProof.ofJson P) p := by
  obtain ⟨⟨h1, h2, h3, h4⟩, h5, h6, h7, h8, h9⟩ := h
  trip [DisjProof.toJson, DisjProof.ofJson] [elemPOf_json h1, elemPOf_json h2, elemPOf_json h3, elemPOf_json h4, elemQOf_json h5,
    elemQOf_json h6, elemQOf_json h7, elemQOf_json h8, elemQOf_json h9, enumOf, proofUsages]

theorem CPProof.trip {p : CPProof} (h : p.Typed P) : Trip CPProof.toJson (CPProof.ofJson P) p := by
  obtain ⟨h1, h2, h3, h4⟩ := h
  trip [CPProof.toJson, CPProof.ofJson] [elemPOf_json h1, elemPOf_json h2, elemQOf_json h3, elemQOf_json h4, enumOf, proofUsages]

theorem ConstProof.trip {p : ConstProof} (h : p.Typed P) : Trip ConstProof.toJson (ConstProof.ofJson P) p := by
  obtain ⟨h1, h2, h3, h4⟩ := h
  trip [ConstProof.toJson, ConstProof.ofJson] [elemPOf_json h1, elemPOf_json h2, elemQOf_json h3, elemQOf_json h4, enumOf, proofUsages]

theorem SchnorrProof.trip {p : SchnorrProof} (h : p.Typed P) : Trip SchnorrProof.toJson (SchnorrProof.ofJson P) p := by
  obtain ⟨h1, h2, h3, h4⟩ := h
  trip [SchnorrProof.toJson, SchnorrProof.ofJson] [elemPOf_json h1, elemPOf_json h2, elemQOf_json h3, elemQOf_json h4, enumOf,
    proofUsages]

theorem PlaintextSelection.trip (s : PlaintextSelection) : Trip PlaintextSelection.toJson PlaintextSelection.ofJson s := by
  have h := opt_trip (o := s.writeIn) (fun a _ => str_trip a)
  trip [PlaintextSelection.toJson, PlaintextSelection.ofJson] [h]

theorem PlaintextContest.trip (c : PlaintextContest) : Trip PlaintextContest.toJson PlaintextContest.ofJson c := by
  have h := list_trip (l := c.ballotSelections) (fun a _ => PlaintextSelection.trip a)
  trip [PlaintextContest.toJson, PlaintextContest.ofJson] [h.1, h.2.2]

theorem PlaintextBallot.trip (b : PlaintextBallot) : Trip PlaintextBallot.toJson PlaintextBallot.ofJson b := by
  have h := list_trip (l := b.contests) (fun a _ => PlaintextContest.trip a)
  trip [PlaintextBallot.toJson, PlaintextBallot.ofJson] [h.1, h.2.2]

theorem CSelection.trip {s : CSelection} (h : s.Typed P) : Trip CSelection.toJson (CSelection.ofJson P) s := by
  obtain ⟨h1, h2, h3, h4, h5⟩ := h
  have h4' := opt_trip (fun a ha => elemQ_trip (h4 a ha))
  have h5' := opt_trip (fun a ha => DisjProof.trip (h5 a ha))
  have h2' := Ciphertext.trip h2
  trip [CSelection.toJson, CSelection.ofJson] [elemQOf_json h1, h2'.1, h2'.2.2, elemQOf_json h3, h4', h5']

theorem CContest.trip {c : CContest} (h : c.Typed P) : Trip CContest.toJson (CContest.ofJson P) c := by
  obtain ⟨h1, h2, h3, h4, h5, h6, h7⟩ := h
  have h2' := list_trip (fun a ha => CSelection.trip (h2 a ha))
  have h3' := Ciphertext.trip h3
  have h5' := opt_trip (fun a ha => elemQ_trip (h5 a ha))
  have h6' := opt_trip (fun a ha => ConstProof.trip (h6 a ha))
  have h7' := opt_trip (fun a ha => HashedCiphertext.trip (h7 a ha))
  trip [CContest.toJson, CContest.ofJson] [elemQOf_json h1, h2'.1, h2'.2.2, h3'.1, h3'.2.2, elemQOf_json h4, h5', h6', h7']

theorem CBallot.trip {b : CBallot} (h : b.Typed P) : Trip CBallot.toJson (CBallot.ofJson P) b := by
  obtain ⟨h1, h2, h3, h4, h5, h6⟩ := h
  have h3' := list_trip (fun a ha => CContest.trip (h3 a ha))
  have h6' := opt_trip (fun a ha => elemQ_trip (h6 a ha))
  trip [CBallot.toJson, CBallot.ofJson, CBallot.members, CBallot.ofMembers] [elemQOf_json h1, elemQOf_json h2, h3'.1, h3'.2.2,
    elemQOf_json h4, elemQOf_json h5, h6']

theorem stateOf_json (s : BallotBoxState) : stateOf (.int s.value) = .ok s := by cases s <;> rfl

theorem SBallot.trip {b : SBallot} (h : b.toCBallot.Typed P) : Trip SBallot.toJson (SBallot.ofJson P) b := by
  obtain ⟨h1, h2, h3, h4, h5, h6⟩ := h
  have h3' := list_trip (fun a ha => CContest.trip (h3 a ha))
  have h6' := opt_trip (fun a ha => elemQ_trip (h6 a ha))
  trip [SBallot.toJson, SBallot.ofJson, CBallot.members, CBallot.ofMembers] [elemQOf_json h1, elemQOf_json h2, h3'.1, h3'.2.2,
    elemQOf_json h4, elemQOf_json h5, h6', stateOf_json]

theorem contestError_trip (e : ContestErrorType) : Trip (fun e => .str (ContestErrorType.value e)) contestErrorOf e := by
  refine ⟨(by simp [Json.Plain]), (by simp), by cases e <;> rfl⟩

theorem ContestData.trip {d : ContestData} (h : d.Typed) : Trip ContestData.toJson ContestData.ofJson d := by
  have h1 := opt_trip (o := d.error) (fun e _ => contestError_trip e)
  have h2 := opt_trip (o := d.errorData) (fun l _ => list_trip (l := l) (fun s _ => str_trip s))
  have h3 := opt_trip (o := d.writeIns) (fun l hl => dict_trip (h l hl) (fun s _ => str_trip s.2))
  trip [ContestData.toJson, ContestData.ofJson] [h1, h2, h3]

theorem KeyPair.trip {k : KeyPair} (h : k.Typed P) : Trip KeyPair.toJson (KeyPair.ofJson P) k := by
  trip [KeyPair.toJson, KeyPair.ofJson] [elemQOf_json h.1, elemPOf_json h.2]

theorem Coefficient.trip {c : Coefficient} (h : c.Typed P) : Trip Coefficient.toJson (Coefficient.ofJson P) c := by
  have h' := SchnorrProof.trip h.2.2
  trip [Coefficient.toJson, Coefficient.ofJson] [elemQOf_json h.1, elemPOf_json h.2.1, h'.1, h'.2.2]

theorem polynomial_trip {p : Polynomial'} (h : ∀ c ∈ p, c.Typed P) : Trip polynomialJson (polynomialOf P) p := by
  have h' := list_trip (fun a ha => Coefficient.trip (h a ha))
  trip [polynomialJson, polynomialOf] [h'.1, h'.2.2]

theorem ElectionPublicKey.trip {k : ElectionPublicKey} (h : k.Typed P) :
    Trip ElectionPublicKey.toJson (ElectionPublicKey.ofJson P) k := by
  have h2 := list_trip (fun a ha => elemP_trip (h.2.1 a ha))
  have h3 := list_trip (fun a ha => SchnorrProof.trip (h.2.2 a ha))
  trip [ElectionPublicKey.toJson, ElectionPublicKey.ofJson] [elemPOf_json h.1, h2.1, h2.2.2, h3.1, h3.2.2]

theorem ElectionKeyPair.trip {k : ElectionKeyPair} (h : k.Typed P) : Trip ElectionKeyPair.toJson (ElectionKeyPair.ofJson P) k := by
  have h1 := KeyPair.trip h.1
  have h2 := polynomial_trip h.2
  trip [ElectionKeyPair.toJson, ElectionKeyPair.ofJson] [h1.1, h1.2.2, h2.1, h2.2.2]

theorem ElectionJointKey.trip {k : ElectionJointKey} (h : k.Typed P) : Trip ElectionJointKey.toJson (ElectionJointKey.ofJson P) k := by
  trip [ElectionJointKey.toJson, ElectionJointKey.ofJson] [elemPOf_json h.1, elemQOf_json h.2]

theorem Backup.trip {b : Backup} (h : b.Typed P) : Trip Backup.toJson (Backup.ofJson P) b := by
  have h' := HashedCiphertext.trip h
  trip [Backup.toJson, Backup.ofJson] [h'.1, h'.2.2]

theorem Verification.trip (v : Verification) : Trip Verification.toJson Verification.ofJson v := by
  trip [Verification.toJson, Verification.ofJson] []

theorem GuardianRecord.trip {g : GuardianRecord} (h : g.Typed P) : Trip GuardianRecord.toJson (GuardianRecord.ofJson P) g := by
  have h2 := list_trip (fun a ha => elemP_trip (h.2.1 a ha))
  have h3 := list_trip (fun a ha => SchnorrProof.trip (h.2.2 a ha))
  trip [GuardianRecord.toJson, GuardianRecord.ofJson] [elemPOf_json h.1, h2.1, h2.2.2, h3.1, h3.2.2]

theorem PrivateGuardianRecord.trip {r : PrivateGuardianRecord} (h : r.Typed P) :
    Trip PrivateGuardianRecord.toJson (PrivateGuardianRecord.ofJson P) r := by
  obtain ⟨h1, h2, h3, h4, h5⟩ := h
  have h1' := ElectionKeyPair.trip h1
  have h2' := dict_trip h2.1 (fun a ha => Backup.trip (h2.2 a ha))
  have h3' := dict_trip h3.1 (fun a ha => ElectionPublicKey.trip (h3.2 a ha))
  have h4' := dict_trip h4.1 (fun a ha => Backup.trip (h4.2 a ha))
  have h5' := dict_trip h5 (fun a _ => Verification.trip a.2)
  trip [PrivateGuardianRecord.toJson, PrivateGuardianRecord.ofJson] [h1'.1, h1'.2.2, h2'.1, h2'.2.2, h3'.1, h3'.2.2, h4'.1, h4'.2.2,
    h5'.1, h5'.2.2]

theorem coordinateData_trip {n : Nat} (h : n < P.q) : Trip coordinateDataJson (coordinateDataOf P) n := by
  trip [coordinateDataJson, coordinateDataOf] [elemQOf_json h]

theorem lagrange_trip {d : List (String × Nat)} (hk : Keys d) (h : ∀ e ∈ d, e.2 < P.q) : Trip lagrangeJson (lagrangeOf P) d := by
  have h' := dict_trip hk (fun a ha => elemQ_trip (h a ha))
  trip [lagrangeJson, lagrangeOf] [h'.1, h'.2.2]

theorem Constants.trip (c : Constants) : Trip Constants.toJson Constants.ofJson c := by
  trip [Constants.toJson, Constants.ofJson] [bigNatOf_json]

theorem Device.trip (d : Device) : Trip Device.toJson Device.ofJson d := by
  trip [Device.toJson, Device.ofJson] []

theorem ContextFile.trip {c : ContextFile} (h : c.context.Typed P) (he : ∀ d ∈ c.extendedData, Keys d) :
    Trip ContextFile.toJson (ContextFile.ofJson P) c := by
  obtain ⟨h1, h2, h3, h4, h5⟩ := h
  have h6 := opt_trip (o := c.extendedData) (fun l hl => dict_trip (he l hl) (fun s _ => str_trip s.2))
  trip [ContextFile.toJson, ContextFile.ofJson] [elemPOf_json h1, elemQOf_json h2, elemQOf_json h3, elemQOf_json h4, elemQOf_json h5, h6,
    configurationOf]

theorem TallySelection.trip {s : TallySelection} (h : s.Typed P) : Trip TallySelection.toJson (TallySelection.ofJson P) s := by
  have h2 := Ciphertext.trip h.2
  trip [TallySelection.toJson, TallySelection.ofJson] [elemQOf_json h.1, h2.1, h2.2.2]

theorem TallyContest.trip {c : TallyContest} (h : c.Typed P) : Trip TallyContest.toJson (TallyContest.ofJson P) c := by
  have h2 := dict_trip h.2.1 (fun a ha => TallySelection.trip (h.2.2 a ha))
  trip [TallyContest.toJson, TallyContest.ofJson] [elemQOf_json h.1, h2.1, h2.2.2]

theorem PublishedTally.trip {t : PublishedTally} (h : t.Typed P) : Trip PublishedTally.toJson (PublishedTally.ofJson P) t := by
  have h2 := dict_trip h.1 (fun a ha => TallyContest.trip (h.2 a ha))
  trip [PublishedTally.toJson, PublishedTally.ofJson] [h2.1, h2.2.2]

theorem CompSelection.trip {s : CompSelection} (h : s.Typed P) : Trip CompSelection.toJson (CompSelection.ofJson P) s := by
  have h3 := CPProof.trip h.2.2
  trip [CompSelection.toJson, CompSelection.ofJson] [elemPOf_json h.1, elemPOf_json h.2.1, h3.1, h3.2.2]

theorem DecSelection.trip {s : DecSelection} (h : s.Typed P) : Trip DecSelection.toJson (DecSelection.ofJson P) s := by
  have h2 := opt_trip (fun a ha => CPProof.trip (h.2.1 a ha))
  have h3 := opt_trip (o := s.recovered) (fun d hd => dict_trip (h.2.2 d hd).1 (fun a ha => CompSelection.trip ((h.2.2 d hd).2 a ha)))
  trip [DecSelection.toJson, DecSelection.ofJson] [elemPOf_json h.1, h2, h3]

theorem PTSelection.trip {s : PTSelection} (h : s.Typed P) : Trip PTSelection.toJson (PTSelection.ofJson P) s := by
  have h2 := Ciphertext.trip h.2.1
  have h3 := list_trip (fun a ha => DecSelection.trip (h.2.2 a ha))
  trip [PTSelection.toJson, PTSelection.ofJson] [elemPOf_json h.1, natOf_json, h2.1, h2.2.2, h3.1, h3.2.2]

theorem PTContest.trip {c : PTContest} (h : c.Typed P) : Trip PTContest.toJson (PTContest.ofJson P) c := by
  have h2 := dict_trip h.1 (fun a ha => PTSelection.trip (h.2 a ha))
  trip [PTContest.toJson, PTContest.ofJson] [h2.1, h2.2.2]

theorem PlaintextTally.trip {t : PlaintextTally} (h : t.Typed P) : Trip PlaintextTally.toJson (PlaintextTally.ofJson P) t := by
  have h2 := dict_trip h.1 (fun a ha => PTContest.trip (h.2 a ha))
  trip [PlaintextTally.toJson, PlaintextTally.ofJson] [h2.1, h2.2.2]

end

/-! ### The manifest -/

theorem AnnotatedString.trip (a : AnnotatedString) : Trip AnnotatedString.toJson AnnotatedString.ofJson a := by
  trip [AnnotatedString.toJson, AnnotatedString.ofJson] []

theorem Language.trip (a : Language) : Trip Language.toJson Language.ofJson a := by
  trip [Language.toJson, Language.ofJson] []

theorem InternationalizedText.trip (t : InternationalizedText) : Trip InternationalizedText.toJson InternationalizedText.ofJson t := by
  have h := list_trip (l := t.text) (fun a _ => Language.trip a)
  trip [InternationalizedText.toJson, InternationalizedText.ofJson] [h.1, h.2.2]

theorem strs_trip (l : List String) : Trip (listJson .str) (listOf strOf) l := list_trip (fun a _ => str_trip a)

theorem ContactInformation.trip (c : ContactInformation) : Trip ContactInformation.toJson ContactInformation.ofJson c := by
  have h1 := opt_trip (o := c.addressLine) (fun a _ => strs_trip a)
  have h2 := opt_trip (o := c.email) (fun l _ => list_trip (l := l) (fun a _ => AnnotatedString.trip a))
  have h3 := opt_trip (o := c.phone) (fun l _ => list_trip (l := l) (fun a _ => AnnotatedString.trip a))
  have h4 := opt_trip (o := c.name) (fun a _ => str_trip a)
  trip [ContactInformation.toJson, ContactInformation.ofJson] [h1, h2, h3, h4]

theorem enumOf_json {l : List String} {s : String} (h : s ∈ l) : enumOf l (.str s) = .ok s := by simp [enumOf, h]

theorem GeopoliticalUnit.trip {u : GeopoliticalUnit} (h : u.type ∈ reportingUnitTypes) :
    Trip GeopoliticalUnit.toJson GeopoliticalUnit.ofJson u := by
  have h1 := opt_trip (o := u.contactInformation) (fun a _ => ContactInformation.trip a)
  trip [GeopoliticalUnit.toJson, GeopoliticalUnit.ofJson] [enumOf_json h, h1]

theorem BallotStyle.trip (s : BallotStyle) : Trip BallotStyle.toJson BallotStyle.ofJson s := by
  have h1 := opt_trip (o := s.geopoliticalUnitIds) (fun a _ => strs_trip a)
  have h2 := opt_trip (o := s.partyIds) (fun a _ => strs_trip a)
  have h3 := opt_trip (o := s.imageUri) (fun a _ => str_trip a)
  trip [BallotStyle.toJson, BallotStyle.ofJson] [h1, h2, h3]

theorem Party.trip (p : Party) : Trip Party.toJson Party.ofJson p := by
  have h0 := InternationalizedText.trip p.name
  have h1 := opt_trip (o := p.abbreviation) (fun a _ => str_trip a)
  have h2 := opt_trip (o := p.color) (fun a _ => str_trip a)
  have h3 := opt_trip (o := p.logoUri) (fun a _ => str_trip a)
  trip [Party.toJson, Party.ofJson] [h0.1, h0.2.2, h1, h2, h3]

theorem Candidate.trip (c : Candidate) : Trip Candidate.toJson Candidate.ofJson c := by
  have h0 := InternationalizedText.trip c.name
  have h1 := opt_trip (o := c.partyId) (fun a _ => str_trip a)
  have h2 := opt_trip (o := c.imageUri) (fun a _ => str_trip a)
  have h3 := opt_trip (o := c.isWriteIn) (fun a _ => bool_trip a)
  trip [Candidate.toJson, Candidate.ofJson] [h0.1, h0.2.2, h1, h2, h3]

theorem SelectionDescription.trip (s : SelectionDescription) : Trip SelectionDescription.toJson SelectionDescription.ofJson s := by
  trip [SelectionDescription.toJson, SelectionDescription.ofJson] []

theorem variationOf_json (v : VoteVariation) : variationOf (.str v.name) = .ok v := by cases v <;> rfl

/-- A contest is read back without the ids of primary parties. -/
theorem ContestDescription.reads (c : ContestDescription) :
    c.toJson.Plain ∧ ContestDescription.ofJson c.toJson = .ok { c with primaryPartyIds := none } := by
  have h1 := list_trip (l := c.ballotSelections) (fun a _ => SelectionDescription.trip a)
  have h2 := opt_trip (o := c.votesAllowed) (fun a _ => int_trip a)
  have h3 := opt_trip (o := c.ballotTitle) (fun a _ => InternationalizedText.trip a)
  have h4 := opt_trip (o := c.ballotSubtitle) (fun a _ => InternationalizedText.trip a)
  cases hp : c.primaryPartyIds with
  | none =>
    constructor
    · simp [ContestDescription.toJson, hp, Json.Plain, Json.PlainMembers, h1.1, h2, h3, h4]
    · simp [ContestDescription.toJson, ContestDescription.ofJson, hp, asObj, need_cons, orElse_cons, bind, Except.bind, pure, Except.pure,
        strOf, intOf, variationOf_json, h1.2.2, h2, h3, h4]
  | some ids =>
    constructor
    · simp [ContestDescription.toJson, hp, Json.Plain, Json.PlainMembers, h1.1, h2, h3, h4, (strs_trip ids).1]
    · simp [ContestDescription.toJson, ContestDescription.ofJson, hp, asObj, need_cons, orElse_cons, bind, Except.bind, pure, Except.pure,
        strOf, intOf, variationOf_json, h1.2.2, h2, h3, h4]

/-- A manifest with the ids of primary parties of its contests left out. -/
def Manifest.withoutPrimaryParties (m : Manifest) : Manifest :=
  { m with contests := m.contests.map (fun c => { c with primaryPartyIds := none }) }

theorem contests_read (cs : List ContestDescription) : listOf ContestDescription.ofJson (listJson ContestDescription.toJson cs) =
    .ok (cs.map (fun c => { c with primaryPartyIds := none })) := by
  simp only [listOf, listJson]
  induction cs with
  | nil => rfl
  | cons c cs ih => rw [List.map_cons, List.mapM_cons, (ContestDescription.reads c).2, ih]; rfl

/-- A manifest is read back without the ids of primary parties. -/
theorem Manifest.reads {m : Manifest} (h : m.Typed) :
    m.toJson.Plain ∧ Manifest.ofJson m.toJson = .ok m.withoutPrimaryParties := by
  obtain ⟨h1, h2, h3⟩ := h
  have h3' := list_trip (fun u hu => GeopoliticalUnit.trip (h3 u hu))
  have h4 := list_trip (l := m.parties) (fun u _ => Party.trip u)
  have h5 := list_trip (l := m.candidates) (fun u _ => Candidate.trip u)
  have h6 := list_plain (l := m.contests) (fun c _ => (ContestDescription.reads c).1)
  have h7 := list_trip (l := m.ballotStyles) (fun u _ => BallotStyle.trip u)
  have h8 := opt_trip (o := m.name) (fun u _ => InternationalizedText.trip u)
  have h9 := opt_trip (o := m.contactInformation) (fun u _ => ContactInformation.trip u)
  have e1 : enumOf specVersions (.str m.specVersion) = .ok m.specVersion := enumOf_json h1
  have e2 : enumOf electionTypes (.str m.type) = .ok m.type := enumOf_json h2
  constructor
  · simp [Manifest.toJson, Json.Plain, Json.PlainMembers, h3'.1, h4.1, h5.1, h6, h7.1, h8, h9]
  · simp [Manifest.toJson, Manifest.ofJson, asObj, need_cons, orElse_cons, bind, Except.bind, pure, Except.pure, strOf, e1, e2, h3'.2.2,
      h4.2.2, h5.2.2, contests_read, h7.2.2, h8, h9, Manifest.withoutPrimaryParties]

end EG
