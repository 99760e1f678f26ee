import Verif.Lemmas.Validator
import Verif.Spec.ToyElection

/-!
# C32: the structural check of a ballot
-/

namespace EG

/-- C32: the check returns `True` exactly for the ballots that match their style, and raises exactly when the
manifest has no such style. -/
theorem C32_iff (E : Env) (b : CBallot) (m : InternalManifest) :
    (ballotIsValidForStyle E b m = .ok true ↔
      (∃ s ∈ m.ballotStyles, s.objectId = b.styleId) ∧ b.MatchesStyle E m) ∧
    (ballotIsValidForStyle E b m = .error .index ↔ ∀ s ∈ m.ballotStyles, s.objectId ≠ b.styleId) ∧
    (∀ e, ballotIsValidForStyle E b m = .error e → e = .index) := by
  rcases ballotIsValidForStyle_cases E b m with ⟨h1, h2⟩ | ⟨⟨s, h1⟩, r, h2, h3⟩
  · have hn : ∀ s ∈ m.ballotStyles, s.objectId ≠ b.styleId := by
      simpa [List.find?_eq_none] using h1
    rw [h2]
    refine ⟨⟨fun h => (by cases h), fun ⟨⟨s, hs, he⟩, _⟩ => absurd he (hn s hs)⟩, ⟨fun _ => hn, fun _ => rfl⟩, ?_⟩
    intro e he; cases he; rfl
  · have hs : s ∈ m.ballotStyles ∧ s.objectId = b.styleId :=
      ⟨List.mem_of_find?_eq_some h1, by simpa using List.find?_some h1⟩
    rw [h2]
    refine ⟨?_, ⟨fun h => (by cases h), fun h => absurd hs.2 (h s hs.1)⟩, fun e he => by cases he⟩
    constructor
    · intro h; cases h; exact ⟨⟨s, hs⟩, h3.1 rfl⟩
    · intro h; rw [h3.2 h.2]

/-- C32: on an accepted ballot every contest of the style and every selection of it is present, with the hashes of
the manifest and the right number of selections. -/
theorem C32_present (E : Env) (b : CBallot) (m : InternalManifest) (h : ballotIsValidForStyle E b m = .ok true)
    (d : ContestWithPlaceholders) (hd : m.StyleHas b.styleId d) :
    ∃ c ∈ b.contests, c.objectId = d.objectId ∧ c.descriptionHash = d.cryptoHash E ∧
      c.ballotSelections.length = d.ballotSelections.length + d.placeholders.length ∧
      ∀ sd ∈ d.ballotSelections, ∃ s ∈ c.ballotSelections, s.objectId = sd.objectId ∧
        s.descriptionHash = sd.cryptoHash E := by
  obtain ⟨c, hc, hm⟩ := ((C32_iff E b m).1.1 h).2 d hd
  refine ⟨c, List.mem_of_find?_eq_some hc, by simpa using List.find?_some hc, hm.hash, hm.count, fun sd hsd => ?_⟩
  obtain ⟨s, hs, hh⟩ := hm.selections sd hsd
  exact ⟨s, List.mem_of_find?_eq_some hs, by simpa using List.find?_some hs, hh⟩

/-- C32: the election check is the structural check followed, if asked for, by the check of the encryption. -/
theorem C32_election (E : Env) (b : CBallot) (m : InternalManifest) (ctx : Context) (validate : Bool) :
    ballotIsValidForElection E b m ctx validate = .ok true ↔
      ballotIsValidForStyle E b m = .ok true ∧ (validate = true →
        b.isValidEncryption E m.manifestHash ctx.elgamalPublicKey ctx.cryptoExtendedBaseHash = .ok true) :=
  ⟨ballotIsValidForElection_true E b m ctx validate, fun h => ballotIsValidForElection_of E b m ctx validate h.1 h.2⟩

/-- An honest ballot is accepted; with a contest or a selection removed, or for an unknown style, it is not. -/
example :
    let b := toyEncrypt "b" "t" 1 0 1 0
    let short := b.contests.map (fun c => { c with ballotSelections := c.ballotSelections.drop 1 })
    ballotIsValidForElection toyEnv b toyIM toyCtx true = .ok true ∧
    ballotIsValidForStyle toyEnv { b with contests := b.contests.take 1 } toyIM = .ok false ∧
    ballotIsValidForStyle toyEnv { b with contests := short } toyIM = .ok false ∧
    ballotIsValidForStyle toyEnv { b with styleId := "z" } toyIM = .error .index := by decide +kernel

end EG
