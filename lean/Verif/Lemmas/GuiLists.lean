import Verif.Spec.GuiLists
import Verif.Lemmas.KeyCeremonyMediator
import Mathlib.Data.List.Perm.Basic
import Mathlib.Data.List.Nodup

/-!
# Lemmas about the lists of the GUI
-/

namespace EG

/-- The entry that a call still has to append to the list of an election: election, name and id of the decryption. -/
def Progress.owes : Progress → Option (String × String × String)
  | .decryptionNotify eid name did => some (eid, name, did)
  | .decryptionPush eid name did => some (eid, name, did)
  | _ => none

/-- The election that a call has read. -/
def Progress.knows : Progress → Option String
  | .decryptionCheck eid _ _ => some eid
  | .decryptionInsert eid _ _ => some eid
  | _ => none

/-- The invariant of all interleavings. -/
structure ListsInv (s : ListsState) : Prop where
  kc : (dkeys s.db.ceremonies).Nodup
  ke : (dkeys s.db.elections).Nodup
  kd : (dkeys s.db.decryptions).Nodup
  entry : ∀ eid e, dget s.db.elections eid = some e → ∀ x ∈ e.decryptions,
    ∃ d, dget s.db.decryptions x.decryptionId = some d ∧ d.doc.electionId = eid ∧ d.name = x.name
  once : ∀ eid e, dget s.db.elections eid = some e → (e.decryptions.map (·.decryptionId)).Nodup
  listed : ∀ did d, dget s.db.decryptions did = some d → ∃ e, dget s.db.elections d.doc.electionId = some e ∧
    (⟨did, d.name⟩ ∈ e.decryptions ∨ ∃ c p, dget s.calls c = some p ∧ p.owes = some (d.doc.electionId, d.name, did))
  owed : ∀ c p, dget s.calls c = some p → ∀ eid name did, p.owes = some (eid, name, did) →
    (∃ d, dget s.db.decryptions did = some d ∧ d.doc.electionId = eid ∧ d.name = name) ∧
    ∀ e, dget s.db.elections eid = some e → did ∉ e.decryptions.map (·.decryptionId)
  owner : ∀ c c' p p' eid name did eid' name', dget s.calls c = some p → dget s.calls c' = some p' →
    p.owes = some (eid, name, did) → p'.owes = some (eid', name', did) → c = c'
  known : ∀ c p, dget s.calls c = some p → ∀ eid, p.knows = some eid → ∃ e, dget s.db.elections eid = some e

/-- Changing the progress of one call to one that owes and knows nothing, when it owed nothing. -/
theorem ListsInv.setCall {s : ListsState} (h : ListsInv s) (client : Nat) (p' : Progress)
    (hold : ∀ p, dget s.calls client = some p → p.owes = none)
    (howes : p'.owes = none) (hknows : ∀ eid, p'.knows = some eid → ∃ e, dget s.db.elections eid = some e) :
    ListsInv ⟨s.db, dset s.calls client p'⟩ := by
  refine ⟨h.kc, h.ke, h.kd, h.entry, h.once, ?_, ?_, ?_, ?_⟩
  · intro did d hd
    obtain ⟨e, he, hm⟩ := h.listed did d hd
    refine ⟨e, he, hm.imp_right ?_⟩
    rintro ⟨c, p, hp, ho⟩
    refine ⟨c, p, ?_, ho⟩
    show dget (dset s.calls client p') c = some p
    rw [dget_dset, if_neg, hp]
    rintro rfl
    rw [hold p hp] at ho
    cases ho
  · intro c p hp
    have hp : dget (dset s.calls client p') c = some p := hp
    rw [dget_dset] at hp
    split at hp
    · cases hp
      intro eid name did ho
      rw [howes] at ho
      cases ho
    · exact h.owed c p hp
  · intro c c' p q eid name did eid' name' hp hq ho ho'
    have hp : dget (dset s.calls client p') c = some p := hp
    have hq : dget (dset s.calls client p') c' = some q := hq
    rw [dget_dset] at hp hq
    split at hp
    · cases hp
      rw [howes] at ho
      cases ho
    · split at hq
      · cases hq
        rw [howes] at ho'
        cases ho'
      · exact h.owner c c' p q eid name did eid' name' hp hq ho ho'
  · intro c p hp
    have hp : dget (dset s.calls client p') c = some p := hp
    rw [dget_dset] at hp
    split at hp
    · cases hp
      exact hknows
    · exact h.known c p hp

/-- Changing an election without its list. -/
theorem ListsInv.setElection {s : ListsState} (h : ListsInv s) (eid : String) (e' : NamedElection)
    (hsame : (∃ e, dget s.db.elections eid = some e ∧ e'.decryptions = e.decryptions) ∨
      (dget s.db.elections eid = none ∧ e'.decryptions = [])) :
    ListsInv ⟨{ s.db with elections := dset s.db.elections eid e' }, s.calls⟩ := by
  have key : ∀ i x, dget (dset s.db.elections eid e') i = some x →
      (∃ y, dget s.db.elections i = some y ∧ x.decryptions = y.decryptions) ∨ x.decryptions = [] := by
    intro i x hx
    rw [dget_dset] at hx
    split at hx
    · rename_i hi
      subst hi
      cases hx
      rcases hsame with hs | hs
      · exact .inl hs
      · exact .inr hs.2
    · exact .inl ⟨x, hx, rfl⟩
  have back : ∀ i y, dget s.db.elections i = some y → ∃ x, dget (dset s.db.elections eid e') i = some x ∧
      x.decryptions = y.decryptions := by
    intro i y hy
    rw [dget_dset]
    split
    · rename_i hi
      subst hi
      rcases hsame with ⟨e, he, hs⟩ | hs
      · rw [hy] at he
        cases he
        exact ⟨e', rfl, hs⟩
      · rw [hy] at hs
        cases hs.1
    · exact ⟨y, hy, rfl⟩
  refine ⟨h.kc, dset_nodup h.ke _ _, h.kd, ?_, ?_, ?_, ?_, h.owner, ?_⟩
  · intro i x hx z hz
    rcases key i x hx with ⟨y, hy, hxy⟩ | hxy
    · rw [hxy] at hz
      exact h.entry i y hy z hz
    · rw [hxy] at hz
      cases hz
  · intro i x hx
    rcases key i x hx with ⟨y, hy, hxy⟩ | hxy
    · rw [hxy]
      exact h.once i y hy
    · rw [hxy]
      exact List.nodup_nil
  · intro did d hd
    obtain ⟨e, he, hm⟩ := h.listed did d hd
    obtain ⟨x, hx, hxe⟩ := back _ e he
    exact ⟨x, hx, hxe ▸ hm⟩
  · intro c p hp i name did ho
    obtain ⟨hd, hn⟩ := h.owed c p hp i name did ho
    refine ⟨hd, ?_⟩
    intro x hx
    rcases key i x hx with ⟨y, hy, hxy⟩ | hxy
    · rw [hxy]
      exact hn y hy
    · rw [hxy]
      simp
  · intro c p hp i hk
    obtain ⟨e, he⟩ := h.known c p hp i hk
    obtain ⟨x, hx, -⟩ := back i e he
    exact ⟨x, hx⟩

/-- Changing the ceremonies. -/
theorem ListsInv.setCeremony {s : ListsState} (h : ListsInv s) (id : String) (c : NamedCeremony) :
    ListsInv ⟨{ s.db with ceremonies := dset s.db.ceremonies id c }, s.calls⟩ :=
  ⟨dset_nodup h.kc _ _, h.ke, h.kd, h.entry, h.once, h.listed, h.owed, h.owner, h.known⟩

/-- Telling watchers. -/
theorem ListsInv.notify {s : ListsState} (h : ListsInv s) (a b : String) : ListsInv ⟨s.db.notify a b, s.calls⟩ :=
  ⟨h.kc, h.ke, h.kd, h.entry, h.once, h.listed, h.owed, h.owner, h.known⟩

/-- Changing the document of a decryption. -/
theorem ListsInv.setDecryption {s : ListsState} (h : ListsInv s) (did : String) (d d' : NamedDecryption)
    (hd : dget s.db.decryptions did = some d) (hn : d'.name = d.name) (he : d'.doc.electionId = d.doc.electionId) :
    ListsInv ⟨{ s.db with decryptions := dset s.db.decryptions did d' }, s.calls⟩ := by
  have back : ∀ i y, dget s.db.decryptions i = some y → ∃ x, dget (dset s.db.decryptions did d') i = some x ∧
      x.name = y.name ∧ x.doc.electionId = y.doc.electionId := by
    intro i y hy
    rw [dget_dset]
    split
    · rename_i hi
      subst hi
      rw [hd] at hy
      cases hy
      exact ⟨d', rfl, hn, he⟩
    · exact ⟨y, hy, rfl, rfl⟩
  refine ⟨h.kc, h.ke, dset_nodup h.kd _ _, ?_, h.once, ?_, ?_, h.owner, h.known⟩
  · intro eid e hee x hx
    obtain ⟨y, hy, h1, h2⟩ := h.entry eid e hee x hx
    obtain ⟨z, hz, h3, h4⟩ := back _ y hy
    exact ⟨z, hz, h4.trans h1, h3.trans h2⟩
  · intro i x hx
    replace hx : dget (dset s.db.decryptions did d') i = some x := hx
    rw [dget_dset] at hx
    split at hx
    · rename_i hi
      subst hi
      cases hx
      rw [he, hn]
      exact h.listed did d hd
    · exact h.listed i x hx
  · intro c p hp eid name i ho
    obtain ⟨⟨y, hy, h1, h2⟩, h3⟩ := h.owed c p hp eid name i ho
    obtain ⟨z, hz, h4, h5⟩ := back _ y hy
    exact ⟨⟨z, hz, h5.trans h1, h4.trans h2⟩, h3⟩

/-- A call inserts a decryption. -/
theorem ListsInv.insert {s : ListsState} (h : ListsInv s) (client : Nat) (did eid name : String) (e : NamedElection)
    (hfresh : dget s.db.decryptions did = none) (hcall : ∃ p, dget s.calls client = some p ∧ p.owes = none ∧ p.knows = some eid) :
    ListsInv ⟨{ s.db with decryptions := dset s.db.decryptions did (.create eid e name) },
      dset s.calls client (.decryptionNotify eid name did)⟩ := by
  obtain ⟨p₀, hp₀, ho₀, hk₀⟩ := hcall
  obtain ⟨e₀, he₀⟩ := h.known client p₀ hp₀ eid hk₀
  have back : ∀ i y, dget s.db.decryptions i = some y →
      dget (dset s.db.decryptions did (.create eid e name)) i = some y := by
    intro i y hy
    rw [dget_dset, if_neg, hy]
    rintro rfl
    rw [hfresh] at hy
    cases hy
  have notOwed : ∀ c p, dget s.calls c = some p → ∀ eid' name', p.owes ≠ some (eid', name', did) := by
    intro c p hp eid' name' ho
    obtain ⟨⟨d, hd, -⟩, -⟩ := h.owed c p hp eid' name' did ho
    rw [hfresh] at hd
    cases hd
  refine ⟨h.kc, h.ke, dset_nodup h.kd _ _, ?_, h.once, ?_, ?_, ?_, ?_⟩
  · intro i x hx z hz
    obtain ⟨d, hd, h1⟩ := h.entry i x hx z hz
    exact ⟨d, back _ d hd, h1⟩
  · intro i x hx
    replace hx : dget (dset s.db.decryptions did (.create eid e name)) i = some x := hx
    rw [dget_dset] at hx
    split at hx
    · rename_i hi
      subst hi
      cases hx
      refine ⟨e₀, he₀, .inr ⟨client, .decryptionNotify eid name did, ?_, rfl⟩⟩
      show dget (dset s.calls client _) client = _
      rw [dget_dset, if_pos rfl]
    · obtain ⟨y, hy, hm⟩ := h.listed i x hx
      refine ⟨y, hy, hm.imp_right ?_⟩
      rintro ⟨c, p, hp, ho⟩
      refine ⟨c, p, ?_, ho⟩
      show dget (dset s.calls client _) c = _
      rw [dget_dset, if_neg, hp]
      rintro rfl
      rw [hp₀] at hp
      cases hp
      rw [ho₀] at ho
      cases ho
  · intro c p hp eid' name' i ho
    have hp : dget (dset s.calls client (.decryptionNotify eid name did)) c = some p := hp
    rw [dget_dset] at hp
    split at hp
    · cases hp
      simp only [Progress.owes, Option.some.injEq, Prod.mk.injEq] at ho
      obtain ⟨rfl, rfl, rfl⟩ := ho
      refine ⟨⟨.create eid e name, ?_, rfl, rfl⟩, ?_⟩
      · show dget (dset s.db.decryptions did _) did = _
        rw [dget_dset, if_pos rfl]
      · intro x hx hm
        obtain ⟨z, hz, hzi⟩ := List.mem_map.1 hm
        obtain ⟨d, hd, -⟩ := h.entry eid x hx z hz
        rw [hzi, hfresh] at hd
        cases hd
    · obtain ⟨⟨d, hd, h1⟩, h2⟩ := h.owed c p hp eid' name' i ho
      exact ⟨⟨d, back _ d hd, h1⟩, h2⟩
  · intro c c' p q eid₁ name₁ i eid₂ name₂ hp hq ho ho'
    have hp : dget (dset s.calls client (.decryptionNotify eid name did)) c = some p := hp
    have hq : dget (dset s.calls client (.decryptionNotify eid name did)) c' = some q := hq
    rw [dget_dset] at hp hq
    split at hp
    · rename_i hc
      cases hp
      simp only [Progress.owes, Option.some.injEq, Prod.mk.injEq] at ho
      obtain ⟨rfl, rfl, rfl⟩ := ho
      split at hq
      · rename_i hc'
        exact hc.symm.trans hc'
      · exact absurd ho' (notOwed c' q hq _ _)
    · split at hq
      · cases hq
        simp only [Progress.owes, Option.some.injEq, Prod.mk.injEq] at ho'
        obtain ⟨rfl, rfl, rfl⟩ := ho'
        exact absurd ho (notOwed c p hp _ _)
      · exact h.owner c c' p q eid₁ name₁ i eid₂ name₂ hp hq ho ho'
  · intro c p hp i hk
    have hp : dget (dset s.calls client (.decryptionNotify eid name did)) c = some p := hp
    rw [dget_dset] at hp
    split at hp
    · cases hp
      cases hk
    · exact h.known c p hp i hk

/-- A call goes from telling the watchers to appending. -/
theorem ListsInv.toPush {s : ListsState} (h : ListsInv s) (client : Nat) (did eid name : String)
    (hp₀ : dget s.calls client = some (.decryptionNotify eid name did)) :
    ListsInv ⟨s.db, dset s.calls client (.decryptionPush eid name did)⟩ := by
  have back : ∀ c p, dget (dset s.calls client (.decryptionPush eid name did)) c = some p →
      ∃ p', dget s.calls c = some p' ∧ p'.owes = p.owes ∧ p'.knows = p.knows := by
    intro c p hp
    rw [dget_dset] at hp
    split at hp
    · rename_i hc
      subst hc
      cases hp
      exact ⟨_, hp₀, rfl, rfl⟩
    · exact ⟨p, hp, rfl, rfl⟩
  refine ⟨h.kc, h.ke, h.kd, h.entry, h.once, ?_, ?_, ?_, ?_⟩
  · intro i x hx
    obtain ⟨y, hy, hm⟩ := h.listed i x hx
    refine ⟨y, hy, hm.imp_right ?_⟩
    rintro ⟨c, p, hp, ho⟩
    by_cases hc : client = c
    · subst hc
      rw [hp₀] at hp
      cases hp
      refine ⟨client, .decryptionPush eid name did, ?_, ho⟩
      show dget (dset s.calls client _) client = _
      rw [dget_dset, if_pos rfl]
    · refine ⟨c, p, ?_, ho⟩
      show dget (dset s.calls client _) c = _
      rw [dget_dset, if_neg hc, hp]
  · intro c p hp
    obtain ⟨p', hp', h1, -⟩ := back c p hp
    rw [← h1]
    exact h.owed c p' hp'
  · intro c c' p q eid₁ name₁ i eid₂ name₂ hp hq ho ho'
    obtain ⟨p', hp', h1, -⟩ := back c p hp
    obtain ⟨q', hq', h2, -⟩ := back c' q hq
    exact h.owner c c' p' q' eid₁ name₁ i eid₂ name₂ hp' hq' (h1.trans ho) (h2.trans ho')
  · intro c p hp
    obtain ⟨p', hp', -, h2⟩ := back c p hp
    rw [← h2]
    exact h.known c p' hp'

/-- A call appends to the list of the election. -/
theorem ListsInv.push {s : ListsState} (h : ListsInv s) (client : Nat) (did eid name : String)
    (hp₀ : dget s.calls client = some (.decryptionPush eid name did)) :
    ListsInv ⟨s.db.appendDecryption eid did name, dset s.calls client (.done (.success did))⟩ := by
  obtain ⟨⟨d₀, hd₀, hde, hdn⟩, hno⟩ := h.owed client _ hp₀ eid name did rfl
  obtain ⟨e₀, he₀, -⟩ := h.listed did d₀ hd₀
  rw [hde] at he₀
  have hdb : s.db.appendDecryption eid did name = { s.db with
      elections := dset s.db.elections eid { e₀ with decryptions := e₀.decryptions ++ [⟨did, name⟩] } } := by
    simp only [ListsDb.appendDecryption, he₀]
  rw [hdb]
  have key : ∀ i x, dget (dset s.db.elections eid { e₀ with decryptions := e₀.decryptions ++ [⟨did, name⟩] }) i = some x →
      (i = eid ∧ x.decryptions = e₀.decryptions ++ [⟨did, name⟩]) ∨ (i ≠ eid ∧ dget s.db.elections i = some x) := by
    intro i x hx
    rw [dget_dset] at hx
    split at hx
    · rename_i hi
      cases hx
      exact .inl ⟨hi.symm, rfl⟩
    · rename_i hi
      exact .inr ⟨fun hc => hi hc.symm, hx⟩
  have calls : ∀ c p, dget (dset s.calls client (.done (.success did))) c = some p →
      (p.owes = none ∧ p.knows = none) ∨ (c ≠ client ∧ dget s.calls c = some p) := by
    intro c p hp
    rw [dget_dset] at hp
    split at hp
    · cases hp
      exact .inl ⟨rfl, rfl⟩
    · rename_i hc
      exact .inr ⟨fun hx => hc hx.symm, hp⟩
  refine ⟨h.kc, dset_nodup h.ke _ _, h.kd, ?_, ?_, ?_, ?_, ?_, ?_⟩
  · intro i x hx z hz
    rcases key i x hx with ⟨rfl, hl⟩ | ⟨hi, hx⟩
    · rw [hl] at hz
      rcases List.mem_append.1 hz with hz | hz
      · exact h.entry i e₀ he₀ z hz
      · rw [List.mem_singleton] at hz
        subst hz
        exact ⟨d₀, hd₀, hde, hdn⟩
    · exact h.entry i x hx z hz
  · intro i x hx
    rcases key i x hx with ⟨rfl, hl⟩ | ⟨hi, hx⟩
    · rw [hl, List.map_append, List.nodup_append]
      refine ⟨h.once i e₀ he₀, by simp, ?_⟩
      intro a ha b hb hab
      simp only [List.map_cons, List.map_nil, List.mem_singleton] at hb
      subst hb
      subst hab
      exact hno e₀ he₀ ha
    · exact h.once i x hx
  · intro i x hx
    obtain ⟨y, hy, hm⟩ := h.listed i x hx
    by_cases hxe : x.doc.electionId = eid
    · rw [hxe, he₀] at hy
      cases hy
      refine ⟨{ e₀ with decryptions := e₀.decryptions ++ [⟨did, name⟩] }, ?_, ?_⟩
      · show dget (dset s.db.elections eid _) _ = _
        rw [dget_dset, if_pos hxe.symm]
      · rcases hm with hm | ⟨c, p, hp, ho⟩
        · exact .inl (List.mem_append_left _ hm)
        · by_cases hc : c = client
          · subst hc
            rw [hp₀] at hp
            cases hp
            simp only [Progress.owes, Option.some.injEq, Prod.mk.injEq] at ho
            obtain ⟨-, h2, h3⟩ := ho
            left
            simp [← h2, ← h3]
          · refine .inr ⟨c, p, ?_, ho⟩
            show dget (dset s.calls client _) c = _
            rw [dget_dset, if_neg (fun hx => hc hx.symm), hp]
    · refine ⟨y, ?_, hm.imp_right ?_⟩
      · show dget (dset s.db.elections eid _) _ = _
        rw [dget_dset, if_neg (fun hx => hxe hx.symm), hy]
      · rintro ⟨c, p, hp, ho⟩
        refine ⟨c, p, ?_, ho⟩
        show dget (dset s.calls client _) c = _
        rw [dget_dset, if_neg, hp]
        rintro rfl
        rw [hp₀] at hp
        cases hp
        simp only [Progress.owes, Option.some.injEq, Prod.mk.injEq] at ho
        exact hxe ho.1.symm
  · intro c p hp eid' name' i ho
    rcases calls c p hp with ⟨h1, -⟩ | ⟨hc, hp'⟩
    · rw [h1] at ho
      cases ho
    · obtain ⟨h1, h2⟩ := h.owed c p hp' eid' name' i ho
      refine ⟨h1, ?_⟩
      intro x hx
      rcases key eid' x hx with ⟨rfl, hl⟩ | ⟨hi, hx⟩
      · rw [hl]
        simp only [List.map_append, List.map_cons, List.map_nil, List.mem_append, List.mem_singleton]
        rintro (hm | rfl)
        · exact h2 e₀ he₀ hm
        · exact hc (h.owner c client p _ eid' name' i eid' name hp' hp₀ ho rfl)
      · exact h2 x hx
  · intro c c' p q eid₁ name₁ i eid₂ name₂ hp hq ho ho'
    rcases calls c p hp with ⟨h1, -⟩ | ⟨hc, hp'⟩
    · rw [h1] at ho
      cases ho
    · rcases calls c' q hq with ⟨h1, -⟩ | ⟨hc', hq'⟩
      · rw [h1] at ho'
        cases ho'
      · exact h.owner c c' p q eid₁ name₁ i eid₂ name₂ hp' hq' ho ho'
  · intro c p hp i hk
    rcases calls c p hp with ⟨-, h1⟩ | ⟨hc, hp'⟩
    · rw [h1] at hk
      cases hk
    · obtain ⟨y, hy⟩ := h.known c p hp' i hk
      show ∃ e, dget (dset s.db.elections eid _) i = some e
      rw [dget_dset]
      split
      · exact ⟨_, rfl⟩
      · exact ⟨y, hy⟩

/-- Other work keeps the invariant. -/
theorem ListsInv.work {s : ListsState} (h : ListsInv s) (w : Work) : ListsInv ⟨s.db.work w, s.calls⟩ := by
  cases w with
  | uploads eid f =>
    simp only [ListsDb.work]
    split
    · exact h
    · rename_i e he
      exact h.setElection eid _ (.inl ⟨e, he, rfl⟩)
  | decryption did f =>
    simp only [ListsDb.work]
    split
    · exact h
    · rename_i d hd
      exact h.setDecryption did d _ hd rfl rfl
  | ceremony id f =>
    simp only [ListsDb.work]
    split
    · exact h
    · exact h.setCeremony id _

/-- One request of a call keeps the invariant. -/
theorem ListsInv.request {s : ListsState} (h : ListsInv s) (client : Nat) (newId : String) (p : Progress)
    (hp : dget s.calls client = some p) :
    ListsInv ⟨(p.step newId s.db).1, dset s.calls client (p.step newId s.db).2⟩ := by
  have simple : ∀ p' : Progress, p.owes = none → p'.owes = none → p'.knows = none →
      ListsInv ⟨s.db, dset s.calls client p'⟩ := by
    intro p' h1 h2 h3
    refine h.setCall client p' ?_ h2 ?_
    · intro q hq
      rw [hp] at hq
      cases hq
      exact h1
    · intro eid hk
      rw [h3] at hk
      cases hk
  cases p with
  | ceremonyCheck name gc q =>
    simp only [Progress.step]
    split <;> exact simple _ rfl rfl rfl
  | ceremonyInsert name gc q =>
    simp only [Progress.step]
    split
    · exact simple _ rfl rfl rfl
    · exact (simple (.ceremonyNotify newId) rfl rfl rfl).setCeremony newId _
  | ceremonyNotify id =>
    simp only [Progress.step]
    exact (simple (.done (.success id)) rfl rfl rfl).notify _ _
  | electionCheck kc name build =>
    simp only [Progress.step]
    split <;> exact simple _ rfl rfl rfl
  | electionGet kc name build =>
    simp only [Progress.step]
    split
    · exact simple _ rfl rfl rfl
    · split <;> exact simple _ rfl rfl rfl
  | electionInsert kc name g q =>
    simp only [Progress.step]
    split
    · exact simple _ rfl rfl rfl
    · rename_i hnone
      exact (simple (.done (.success newId)) rfl rfl rfl).setElection newId _ (.inr ⟨hnone, rfl⟩)
  | decryptionGet eid name =>
    simp only [Progress.step]
    split
    · exact simple _ rfl rfl rfl
    · rename_i e he
      refine h.setCall client _ ?_ rfl ?_
      · intro q hq
        rw [hp] at hq
        cases hq
        rfl
      · intro i hi
        simp only [Progress.knows, Option.some.injEq] at hi
        exact ⟨e, hi ▸ he⟩
  | decryptionCheck eid name e =>
    simp only [Progress.step]
    split
    · exact simple _ rfl rfl rfl
    · refine h.setCall client _ ?_ rfl ?_
      · intro q hq
        rw [hp] at hq
        cases hq
        rfl
      · intro i hi
        exact h.known client _ hp i hi
  | decryptionInsert eid name e =>
    simp only [Progress.step]
    split
    · exact simple _ rfl rfl rfl
    · rename_i hnone
      exact h.insert client newId eid name e hnone ⟨_, hp, rfl, rfl⟩
  | decryptionNotify eid name did =>
    simp only [Progress.step]
    exact (h.toPush client did eid name hp).notify _ _
  | decryptionPush eid name did =>
    simp only [Progress.step]
    exact h.push client did eid name hp
  | done a => exact simple _ rfl rfl rfl

/-- One event keeps the invariant. -/
theorem ListsInv.step {s : ListsState} (h : ListsInv s) (ev : ListsEvent) : ListsInv (s.step ev) := by
  cases ev with
  | call client c =>
    simp only [ListsState.step]
    split
    · rename_i hidle
      refine h.setCall client _ ?_ ?_ ?_
      · intro p hp
        simp only [ListsState.idle, hp] at hidle
        cases p <;> first | rfl | cases hidle
      · cases c <;> simp only [Call.start] <;> try rfl
        split <;> rfl
      · intro eid hk
        cases c <;> simp only [Call.start] at hk
        · split at hk <;> cases hk
        · cases hk
        · cases hk
    · exact h
  | step client newId =>
    simp only [ListsState.step]
    split
    · exact h
    · rename_i p hp
      exact h.request client newId p hp
  | work w => exact h.work w

/-- All events keep the invariant. -/
theorem ListsInv.steps {s : ListsState} (h : ListsInv s) (es : List ListsEvent) : ListsInv (s.steps es) := by
  induction es generalizing s with
  | nil => exact h
  | cons ev es ih => exact ih (h.step ev)

/-- A new database. -/
theorem ListsInv.empty : ListsInv ⟨.empty, []⟩ := by
  refine ⟨List.nodup_nil, List.nodup_nil, List.nodup_nil, ?_, ?_, ?_, ?_, ?_, ?_⟩ <;> intros <;> simp_all [ListsDb.empty, dget]

end EG
