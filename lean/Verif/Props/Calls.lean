import Verif.Props.Tally
import Verif.Props.Manifest
import Verif.Props.GuiLists
import Verif.Props.Random
import Verif.Props.Bytes
import Verif.Props.Group
import Verif.Props.Serialize
import Verif.Lemmas.GuiKeyCeremonyPhases

/-!
# Calls that nothing else in the model makes

Each belongs to a property proved elsewhere.
-/

namespace EG

variable {E : Env}

/-! ### C24, C23, C95: elements -/

/-- C24: `int_to_q` and `int_to_p` give the number itself when it is in range, and nothing otherwise. -/
theorem C24_int_to (P : Params) (v : Int) (a : Nat) :
    (intToQ P v = some a ↔ (a : Int) = v ∧ a < P.q) ∧ (intToP P v = some a ↔ (a : Int) = v ∧ a < P.p) := by
  unfold intToQ intToP mkQ mkP
  constructor
  · by_cases h : 0 ≤ v ∧ v < (P.q : Int)
    · rw [if_pos h]; simp only [Option.some.injEq]; omega
    · rw [if_neg h]; simp only [reduceCtorEq, false_iff]; omega
  · by_cases h : 0 ≤ v ∧ v < (P.p : Int)
    · rw [if_pos h]; simp only [Option.some.injEq]; omega
    · rw [if_neg h]; simp only [reduceCtorEq, false_iff]; omega

example : intToP extraSmall 156 = some 156 ∧ intToP extraSmall 157 = none ∧ intToP extraSmall (-1) = none := by decide

/-- C23: a big integer made from a text has the value of the text, and its own text is the canonical one of that value: the same for every
text of the value, and its own fixed point. -/
theorem C23_big_integer (s : List Char) :
    (∀ t n, bigIntegerOfHex s = .ok (t, n) → hexToInt s = .ok n ∧ t = toHex n ∧ bigIntegerOfHex t = .ok (t, n)) ∧
    ∀ e, bigIntegerOfHex s = .error e ↔ hexToInt s = .error e := by
  unfold bigIntegerOfHex
  cases h : hexToInt s with
  | error e =>
    refine ⟨fun t n h => ?_, fun e => ?_⟩
    · simp [bind, Except.bind] at h
    · simp [bind, Except.bind]
  | ok v =>
    refine ⟨fun t n h' => ?_, fun e => ?_⟩
    · simp only [bind, Except.bind, pure, Except.pure, Except.ok.injEq, Prod.mk.injEq] at h'
      obtain ⟨rfl, rfl⟩ := h'
      simp [hexToInt_toHex, bind, Except.bind, pure, Except.pure]
    · simp [bind, Except.bind, pure, Except.pure]

example : bigIntegerOfHex "0a".toList = .ok ("0A".toList, 10) := by decide

/-- C95: `rand_q` takes exactly one draw and gives it out unchanged, so that different draws give different results. -/
theorem C95_rand_q (ds : List Nat) (d : Nat) (rest : List Nat) : randQ ds = some (d, rest) ↔ ds = d :: rest := by
  cases ds <;> simp [randQ]

example : randQ [5, 7] = some (5, [7]) := rfl

/-! ### C36: `tally_ballot` -/

/-- C36: `tally_ballot` does nothing to a ballot of unknown state, and otherwise accepts what `append` with validation accepts.  A ballot it
accepts was cast or spoiled, and is refused from then on. -/
theorem C36_tally_ballot (m : InternalManifest) (ctx : Context) (up : Bool) (t : Tally) (b : SBallot) :
    (b.state = .unknown → tallyBallot E m ctx up t b = (.ok false, t)) ∧
    (b.state ≠ .unknown → tallyBallot E m ctx up t b = t.append E m ctx up b true) ∧
    ((tallyBallot E m ctx up t b).1 = .ok true → b.state ≠ .unknown ∧ ∀ b', b'.objectId = b.objectId →
      tallyBallot E m ctx up (tallyBallot E m ctx up t b).2 b' = (.ok false, (tallyBallot E m ctx up t b).2)) := by
  unfold tallyBallot
  refine ⟨fun h => if_pos h, fun h => if_neg h, fun h => ?_⟩
  by_cases hs : b.state = .unknown
  · rw [if_pos hs] at h; cases h
  · rw [if_neg hs] at h ⊢
    refine ⟨hs, fun b' hid => ?_⟩
    by_cases hs' : b'.state = .unknown
    · rw [if_pos hs']
    · rw [if_neg hs']
      exact C36_append_twice E m ctx up t b b' true true true [] h hid

example : ∃ t : Tally, (tallyBallot toyEnv toyIM toyCtx true t toyCastBallot).1 = .ok true ∧
    (tallyBallot toyEnv toyIM toyCtx true (tallyBallot toyEnv toyIM toyCtx true t toyCastBallot).2 toyCastBallot).1 = .ok false := by
  refine ⟨newTally toyEnv "t" toyIM, ?_⟩
  decide +kernel

/-! ### C40: `is_placeholder` -/

/-- C40: of a contest with the placeholders that were generated for it, `is_placeholder` holds for exactly these: for none of the selections
of the contest, and for as many descriptions as there are seats. -/
theorem C40_is_placeholder (c : ContestDescription) (n : Int) (ps : List SelectionDescription)
    (h : generatePlaceholders c n = .ok ps) :
    (∀ s ∈ c.ballotSelections, (contestWithPlaceholdersFrom c ps).isPlaceholder s = false) ∧
    (∀ s, (contestWithPlaceholdersFrom c ps).isPlaceholder s = true ↔ s ∈ ps) ∧ ps.Nodup ∧ ps.length = n.toNat := by
  have hne : c.ballotSelections ≠ [] := fun hc => by
    obtain ⟨e, he⟩ := (C40_failure c n).2 hc
    rw [he] at h; cases h
  obtain ⟨ps', h1, h2, h3, -, h5, -⟩ := C40_generation c n hne
  rw [h] at h1
  cases h1
  have hiff : ∀ s, (contestWithPlaceholdersFrom c ps).isPlaceholder s = true ↔ s ∈ ps := fun s => decide_eq_true_iff
  refine ⟨fun s hs => ?_, hiff, h3.of_map, h2⟩
  rw [← Bool.not_eq_true, hiff]
  intro hp
  exact lt_irrefl _ (h5 s hp s hs)

example : ∃ c ∈ exManifest.contests, ∃ ps, generatePlaceholders c c.numberElected = .ok ps ∧ ps ≠ [] ∧ c.ballotSelections ≠ [] := by
  refine ⟨_, List.mem_singleton.2 rfl, [⟨"c-2-placeholder", 2, "c-2-candidate"⟩], ?_⟩
  decide +kernel

/-! ### C42: candidates -/

/-- The texts hashed for a candidate. -/
def Candidate.texts (E : Env) (c : Candidate) : List (List Char) :=
  hashTexts E [.str c.objectId, .obj (c.name.cryptoHash E), .ofOptStr c.partyId, .ofOptStr c.imageUri] ++ c.name.texts E

/-- See `AnnotatedString.Plain`. -/
structure Candidate.Plain (c : Candidate) : Prop where
  objectId : EG.Plain c.objectId
  name : c.name.Plain
  partyId : ∀ s ∈ c.partyId, EG.Plain s
  imageUri : ∀ s ∈ c.imageUri, EG.Plain s

/-- C42: the hash of a candidate binds the id, the name, the party and the image.  Missing from the full claim: whether it is a write-in
(`C42_write_in_fails`), and texts that are not plain. -/
theorem C42_candidate_binding_partial (E : Env) (a b : Candidate) (ha : a.Plain) (hb : b.Plain)
    (h : a.cryptoHash E = b.cryptoHash E) :
    { a with isWriteIn := none } = { b with isWriteIn := none } ∨ CollisionIn E (a.texts E ++ b.texts E) := by
  refine or_collision _ fun hE => ?_
  have nb : ∀ c : Candidate, c.Plain →
      ∀ x ∈ [HArg.str c.objectId, .obj (c.name.cryptoHash E), .ofOptStr c.partyId, .ofOptStr c.imageUri], noBar x := by
    intro c hc
    simp only [List.forall_mem_cons]
    exact ⟨noBar_str hc.objectId, noBar_obj, noBar_ofOptStr hc.partyId, noBar_ofOptStr hc.imageUri, by simp⟩
  have h1 := hash_toks hE (nb a ha) (nb b hb) (fun t ht => by simp [Candidate.texts, ht]) (fun t ht => by simp [Candidate.texts, ht]) h
  simp only [List.map_cons, List.cons.injEq] at h1
  obtain ⟨h1, h2, h3, h4, -⟩ := h1
  have e1 := tok_str_inj h1
  have e2 := InternationalizedText.bind hE _ _ ⟨ha.name, fun t ht => by simp [Candidate.texts, ht]⟩
    ⟨hb.name, fun t ht => by simp [Candidate.texts, ht]⟩ (tok_obj_inj h2)
  have e3 := tok_ofOptStr_inj ha.partyId hb.partyId h3
  have e4 := tok_ofOptStr_inj ha.imageUri hb.imageUri h4
  cases a; cases b
  simp only at e1 e2 e3 e4
  simp only [e1, e2, e3, e4]

/-- C42 fails for the mark of a write-in: candidates that differ only in it have the same hash. -/
theorem C42_write_in_fails (E : Env) (c : Candidate) (w : Option Bool) :
    ({ c with isWriteIn := w } : Candidate).cryptoHash E = c.cryptoHash E := rfl

/-- A write-in candidate of a party. -/
def toyCandidate : Candidate := ⟨"x", ⟨[⟨"Ada", "en"⟩]⟩, some "p", none, some true⟩

example : toyCandidate.Plain := by
  constructor <;> simp [toyCandidate, EG.Plain, InternationalizedText.Plain, Language.Plain]

/-! ### C80: padded texts -/

/-- C80: a coordinate written with `padded_encode` takes 512 bytes and is read back by `padded_decode`. -/
theorem C80_padded_coordinate (P : Params) (n : Nat) (h : n < P.q) (hfit : (toRaw coordinateDataJson n).length ≤ 510) :
    ∃ bs, paddedEncode coordinateDataJson n = .ok bs ∧ bs.length = 512 ∧ paddedDecode (coordinateDataOf P) bs = .ok n :=
  padded_trip (coordinateData_trip h) hfit

example : (toRaw coordinateDataJson 12).length ≤ 510 := by decide +kernel

/-! ### C90: the list of elections -/

/-- C90: the list of elections has every election once, with its name, and what `find_one` finds by name is in it. -/
theorem C90_election_list (db : ListsDb) (hn : (dkeys db.elections).Nodup) :
    (db.electionList.map (·.1)).Nodup ∧
    (∀ id name, (id, name) ∈ db.electionList ↔ ∃ e, dget db.elections id = some e ∧ e.name = name) ∧
    ∀ name, db.electionExists name = true ↔ ∃ id, (id, name) ∈ db.electionList := by
  have key : ∀ id name, (id, name) ∈ db.electionList ↔ ∃ e, dget db.elections id = some e ∧ e.name = name := by
    intro id name
    simp only [ListsDb.electionList, List.mem_map, Prod.mk.injEq, Prod.exists]
    constructor
    · rintro ⟨i, e, he, rfl, rfl⟩
      exact ⟨e, dget_of_mem hn he, rfl⟩
    · rintro ⟨e, he, rfl⟩
      exact ⟨id, e, mem_of_dget he, rfl, rfl⟩
  refine ⟨?_, key, fun name => ?_⟩
  · simp only [ListsDb.electionList, List.map_map]
    exact hn
  · simp only [ListsDb.electionExists, ListsDb.electionList, List.any_eq_true, beq_iff_eq, List.mem_map, Prod.mk.injEq, Prod.exists]
    constructor
    · rintro ⟨i, e, he, rfl⟩; exact ⟨i, i, e, he, rfl, rfl⟩
    · rintro ⟨_, i, e, he, rfl, rfl⟩; exact ⟨i, e, he, rfl⟩

example : (ListsDb.mk [] [("e1", ⟨"Spring", "k", 3, 2, [], []⟩), ("e2", ⟨"Fall", "k", 3, 2, [], []⟩)] [] []).electionList = [("e1", "Spring"), ("e2", "Fall")] := by
  decide

/-! ### C62: a browser that is alone -/

/-- C62: when no other call is under way, joining a key ceremony and reacting to a change of it do in the end what the code does when read
from top to bottom. -/
theorem C62_alone (loads : Bytes → R (List Char)) (d : KCDoc) (files : List (String × PrivateGuardianRecord)) :
    (∀ e : String × Bool × (Nat → Nat), (KCSystem.mk d files []).run E loads (KCEvent.whole e)
      = ⟨(KCWorld.onChanged E loads ⟨d, files⟩ e.1 e.2.1 e.2.2).2.doc, files, []⟩) ∧
    ∀ (user : String) (rands : Nat → Nat × Nat) (nonces : Nat → Nat),
      (KCSystem.mk d files []).run E loads [.join user, .step 0 rands nonces, .step 0 rands nonces, .step 0 rands nonces]
        = ⟨(KCWorld.join E ⟨d, files⟩ user rands).2.doc, (KCWorld.join E ⟨d, files⟩ user rands).2.files, []⟩ := by
  refine ⟨whole_run d files, fun user rands nonces => ?_⟩
  unfold KCSystem.run KCWorld.join
  simp only [List.foldl_cons, List.foldl_nil]
  have h0 : (KCSystem.mk d files []).event E loads (.join user) = ⟨d.apply (.joined user), files, [.joining user]⟩ := rfl
  rw [h0, event_step_one]
  cases hn : (d.apply (.joined user)).guardianNumber user with
  | error e => simp only [KCProc.advance, hn, Option.toList, event_step_none]
  | ok number =>
    simp only [KCProc.advance, hn, Option.toList]
    rw [event_step_one]
    cases hg : makeGuardian E user number (d.apply (.joined user)).guardianCount (d.apply (.joined user)).quorum rands with
    | error e => simp only [KCProc.advance, hg, Option.toList, event_step_none]
    | ok g =>
      simp only [KCProc.advance, hg, Option.toList]
      rw [event_step_one]
      simp only [KCProc.advance, Option.toList]

end EG
