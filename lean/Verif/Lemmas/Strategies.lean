import Verif.Spec.Strategies
import Verif.Lemmas.Marking
import Verif.Props.Manifest
import Mathlib.Data.List.Nodup

/-!
# Lemmas about the drawn elections
-/

namespace EG

theorem drawInteger_le (d lo hi : Nat) (h : lo ≤ hi) : lo ≤ drawInteger d lo hi ∧ drawInteger d lo hi ≤ hi := by
  unfold drawInteger
  have := Nat.mod_lt d (show 0 < hi - lo + 1 by omega)
  omega

theorem drawFrom_single {α : Type} (d : Nat) (x : α) : drawFrom d [x] = some x := by
  simp [drawFrom, drawInteger, Nat.mod_one]

theorem drawFrom_mem {α : Type} {d : Nat} {l : List α} {x : α} (h : drawFrom d l = some x) : x ∈ l := List.mem_of_getElem? h

theorem drawFrom_some {α : Type} (d : Nat) {l : List α} (h : l ≠ []) : ∃ x, drawFrom d l = some x := by
  unfold drawFrom
  have h0 : 0 < l.length := List.length_pos_iff.2 h
  have := (drawInteger_le d 0 (l.length - 1) (Nat.zero_le _)).2
  exact ⟨_, List.getElem?_eq_getElem (by omega)⟩

/-- The contest that comes out. -/
def stratContest (parties : List Party) (u : GeopoliticalUnit) (seq : Nat) (r : ContestDraw) : List Candidate × ContestDescription :=
  let ps := if r.referendum then [] else parties
  (r.drawn ps r.count,
    { objectId := r.uuid
      sequenceOrder := seq
      electoralDistrictId := u.objectId
      voteVariation := if r.referendum then .one_of_m else if 1 + r.n % 3 = 1 then .one_of_m else .n_of_m
      numberElected := if r.referendum then 1 else (1 + r.n % 3 : Nat)
      votesAllowed := some (if r.referendum then 1 else (1 + r.n % 3 : Nat))
      name := r.name
      ballotSelections := r.selections ps r.count
      ballotTitle := some r.title
      ballotSubtitle := some r.subtitle
      primaryPartyIds := if r.referendum then none else some (parties.map Party.objectId) })

theorem strategyContest_eq (parties : List Party) (u : GeopoliticalUnit) (seq : Nat) (r : ContestDraw) :
    strategyContest parties [u] seq r = .ok (stratContest parties u seq r) := by
  unfold strategyContest stratContest ContestDraw.count
  cases h : r.referendum
  · simp only [Bool.false_eq_true, if_false, candidateContest, drawFrom_single, Option.getD_none]
    simp [drawInteger]
  · simp only [if_true, referendumContest, drawFrom_single]
    simp [drawInteger]

theorem mapM_ok_map {α β : Type} (f : α → R β) (g : α → β) (l : List α) (h : ∀ x ∈ l, f x = .ok (g x)) : l.mapM f = .ok (l.map g) := by
  induction l with
  | nil => rfl
  | cons x l ih =>
    rw [List.mapM_cons, h x List.mem_cons_self, ih (fun y hy => h y (List.mem_cons_of_mem _ hy))]
    rfl

/-- The manifest that comes out. -/
def stratManifest (maxParties maxContests : Nat) (r : ElectionDraws) : Manifest :=
  let parties := strategyParties r (r.partyCount maxParties)
  let cs := (List.range (r.contestCount maxContests)).map (fun i => stratContest parties r.unit i (r.contest i))
  { electionScopeId := r.scope
    specVersion := "v0.95"
    type := "general"
    startDate := r.date
    endDate := r.date
    geopoliticalUnits := [r.unit]
    parties := parties
    candidates := (cs.map Prod.fst).flatten
    contests := cs.map Prod.snd
    ballotStyles := [strategyStyle r parties [r.unit]]
    name := some r.name
    contactInformation := some r.contact }

theorem strategyManifest_eq {maxParties maxContests : Nat} (hp : 0 < maxParties) (hc : 0 < maxContests) (r : ElectionDraws) :
    strategyManifest maxParties maxContests r = .ok (stratManifest maxParties maxContests r) := by
  have e : ∀ d n, 0 < n → drawInteger d 1 n = 1 + d % n := by
    intro d n hn
    unfold drawInteger
    rw [show n - 1 + 1 = n by omega]
  unfold strategyManifest stratManifest
  rw [if_neg (by omega)]
  simp only [e _ _ hp, e _ _ hc]
  rw [mapM_ok_map _ (fun i => stratContest (strategyParties r (1 + r.parties % maxParties)) r.unit i (r.contest i)) _
    (fun i _ => strategyContest_eq _ _ _ _)]
  rfl

theorem drawn_ids (r : ContestDraw) (ps : List Party) (m : Nat) :
    (r.drawn ps m).map Candidate.objectId = (List.range m).map (fun k => (r.candidates k).uuid) := by
  simp [ContestDraw.drawn, strategyCandidate, Function.comp_def]

theorem drawn_length (r : ContestDraw) (ps : List Party) (m : Nat) : (r.drawn ps m).length = m := by simp [ContestDraw.drawn]

theorem selections_length (r : ContestDraw) (ps : List Party) (m : Nat) : (r.selections ps m).length = m := by
  simp [ContestDraw.selections, drawn_length]

theorem selections_candidates (r : ContestDraw) (ps : List Party) (m : Nat) :
    (r.selections ps m).map SelectionDescription.candidateId = (List.range m).map (fun k => (r.candidates k).uuid) := by
  rw [← drawn_ids r ps m]
  unfold ContestDraw.selections
  rw [List.map_map]
  have : SelectionDescription.candidateId ∘ (fun e : Candidate × Nat => candidateToSelection e.1 e.2) = Candidate.objectId ∘ Prod.fst := rfl
  rw [this, ← List.map_map, List.zipIdx_map_fst]

theorem selections_ids (r : ContestDraw) (ps : List Party) (m : Nat) :
    (r.selections ps m).map SelectionDescription.objectId = (List.range m).map (fun k => "c-" ++ (r.candidates k).uuid) := by
  have h := selections_candidates r ps m
  have : SelectionDescription.objectId ∘ (fun e : Candidate × Nat => candidateToSelection e.1 e.2)
      = (fun s => "c-" ++ s) ∘ SelectionDescription.candidateId ∘ (fun e : Candidate × Nat => candidateToSelection e.1 e.2) := rfl
  unfold ContestDraw.selections at h ⊢
  rw [List.map_map] at h ⊢
  rw [this, ← List.map_map, h, List.map_map]
  rfl

theorem selections_orders (r : ContestDraw) (ps : List Party) (m : Nat) :
    (r.selections ps m).map SelectionDescription.sequenceOrder = (List.range m).map (fun k : Nat => (k : Int)) := by
  unfold ContestDraw.selections
  rw [List.map_map]
  have : SelectionDescription.sequenceOrder ∘ (fun e : Candidate × Nat => candidateToSelection e.1 e.2) = (fun k : Nat => (k : Int)) ∘ Prod.snd := rfl
  rw [this, ← List.map_map, List.zipIdx_map_snd, drawn_length, List.range_eq_range']

theorem nodup_map_range {α : Type} (f : Nat → α) (n : Nat) :
    ((List.range n).map f).Nodup ↔ ∀ i < n, ∀ j < n, f i = f j → i = j := by
  rw [List.nodup_map_iff_inj_on List.nodup_range]
  simp only [List.mem_range]

theorem cdash_inj {a b : String} (h : "c-" ++ a = "c-" ++ b) : a = b := by
  have := congrArg String.toList h
  simp only [String.toList_append, List.append_cancel_left_eq] at this
  exact String.toList_inj.1 this

theorem strat_candidate_ids (maxParties maxContests : Nat) (r : ElectionDraws) :
    ((stratManifest maxParties maxContests r).candidates.map Candidate.objectId)
      = (List.range (r.contestCount maxContests)).flatMap (fun i => (List.range (r.contest i).count).map (fun k => ((r.contest i).candidates k).uuid)) := by
  unfold stratManifest
  simp only [List.map_flatten, List.map_map, List.flatMap_def]
  congr 1
  apply List.map_congr_left
  intro i _
  exact drawn_ids _ _ _

end EG
