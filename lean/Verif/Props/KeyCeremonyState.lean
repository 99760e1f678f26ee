import Verif.Model.KeyCeremonyState
import Mathlib.Tactic.Ring

/-!
# C62: the state of a key ceremony
-/

namespace EG

/-- What must have happened before the ceremony leaves each of the first six states. -/
def CeremonyCounts.Done (c : CeremonyCounts) : CeremonyState → Prop
  | .pendingGuardiansJoin => c.guardianCount ≤ c.guardiansJoined
  | .pendingAdminAnnounce => 0 < c.otherKeys
  | .pendingGuardianBackups => c.guardianCount * c.guardianCount ≤ c.backups
  | .pendingAdminToShareBackups => 0 < c.sharedBackups
  | .pendingGuardiansVerifyBackups => c.guardianCount * (c.guardianCount - 1) ≤ c.verifications
  | .pendingAdminToPublishJointKey => c.jointKey = true
  | .complete => False

/-- The second record has the data of the first, and perhaps more. -/
structure CeremonyCounts.Le (c d : CeremonyCounts) : Prop where
  count : c.guardianCount = d.guardianCount
  joined : c.guardiansJoined ≤ d.guardiansJoined
  keys : c.otherKeys ≤ d.otherKeys
  backups : c.backups ≤ d.backups
  shared : c.sharedBackups ≤ d.sharedBackups
  verifications : c.verifications ≤ d.verifications
  joint : c.jointKey = true → d.jointKey = true

theorem value_inj {s t : CeremonyState} (h : s.value = t.value) : s = t := by
  cases s <;> cases t <;> first | rfl | (exfalso; revert h; decide)

/-- C62 The state is the first step that is not done. -/
theorem C62_state_iff (c : CeremonyCounts) (s : CeremonyState) :
    ceremonyState c = s ↔ ¬ c.Done s ∧ ∀ s' : CeremonyState, s'.value < s.value → c.Done s' := by
  have hall : ∀ (s : CeremonyState), (∀ s' : CeremonyState, s'.value < s.value → c.Done s') ↔
      (2 ≤ s.value → c.Done .pendingGuardiansJoin) ∧ (3 ≤ s.value → c.Done .pendingAdminAnnounce) ∧
      (4 ≤ s.value → c.Done .pendingGuardianBackups) ∧ (5 ≤ s.value → c.Done .pendingAdminToShareBackups) ∧
      (6 ≤ s.value → c.Done .pendingGuardiansVerifyBackups) ∧
      (7 ≤ s.value → c.Done .pendingAdminToPublishJointKey) := by
    intro s
    constructor
    · intro h
      exact ⟨fun g => h _ g,
        fun g => h _ g,
        fun g => h _ g,
        fun g => h _ g,
        fun g => h _ g,
        fun g => h _ g⟩
    · rintro ⟨h1, h2, h3, h4, h5, h6⟩ s' hs
      cases s' with
      | pendingGuardiansJoin => exact h1 hs
      | pendingAdminAnnounce => exact h2 hs
      | pendingGuardianBackups => exact h3 hs
      | pendingAdminToShareBackups => exact h4 hs
      | pendingGuardiansVerifyBackups => exact h5 hs
      | pendingAdminToPublishJointKey => exact h6 hs
      | complete => cases s <;> simp [CeremonyState.value] at hs
  rw [hall]
  have hsq : c.guardianCount ^ 2 = c.guardianCount * c.guardianCount := by ring
  have hsq' : c.guardianCount * c.guardianCount - c.guardianCount = c.guardianCount * (c.guardianCount - 1) := by ring
  unfold ceremonyState
  simp only [hsq, hsq']
  generalize hb : c.guardianCount * c.guardianCount = sq
  generalize hv : c.guardianCount * (c.guardianCount - 1) = sv
  cases s <;> simp only [CeremonyCounts.Done, CeremonyState.value, hb, hv] <;>
    (repeat' split) <;> simp_all <;> omega

/-- C62 The ceremony is shown as complete exactly when all guardians joined, their keys were announced, all backups were
made and shared, all verifications are in and the joint key exists. -/
theorem C62_complete_iff (c : CeremonyCounts) : ceremonyState c = .complete ↔
    c.guardianCount ≤ c.guardiansJoined ∧ 0 < c.otherKeys ∧ c.guardianCount * c.guardianCount ≤ c.backups ∧
    0 < c.sharedBackups ∧ c.guardianCount * (c.guardianCount - 1) ≤ c.verifications ∧ c.jointKey = true := by
  rw [C62_state_iff]
  constructor
  · rintro ⟨-, h⟩
    exact ⟨h .pendingGuardiansJoin (by decide), h .pendingAdminAnnounce (by decide),
      h .pendingGuardianBackups (by decide), h .pendingAdminToShareBackups (by decide),
      h .pendingGuardiansVerifyBackups (by decide), h .pendingAdminToPublishJointKey (by decide)⟩
  · rintro ⟨h1, h2, h3, h4, h5, h6⟩
    refine ⟨id, fun s' hs => ?_⟩
    cases s' with
    | pendingGuardiansJoin => exact h1
    | pendingAdminAnnounce => exact h2
    | pendingGuardianBackups => exact h3
    | pendingAdminToShareBackups => exact h4
    | pendingGuardiansVerifyBackups => exact h5
    | pendingAdminToPublishJointKey => exact h6
    | complete => exact absurd hs (by decide)

/-- C62 Adding data never moves the ceremony back. -/
theorem C62_monotone (c d : CeremonyCounts) (h : c.Le d) : (ceremonyState c).value ≤ (ceremonyState d).value := by
  obtain ⟨-, h1⟩ := (C62_state_iff c _).1 rfl
  obtain ⟨h2, -⟩ := (C62_state_iff d _).1 rfl
  by_contra hlt
  have hd := h1 (ceremonyState d) (by omega)
  refine h2 ?_
  have hcount := h.count
  generalize ceremonyState d = s at hd
  have := h.joined; have := h.keys; have := h.backups; have := h.shared; have := h.verifications
  cases s with
  | pendingAdminToPublishJointKey => exact h.joint hd
  | complete => exact hd
  | pendingGuardiansJoin => simp only [CeremonyCounts.Done, ← hcount] at *; omega
  | pendingAdminAnnounce => simp only [CeremonyCounts.Done] at *; omega
  | pendingGuardianBackups => simp only [CeremonyCounts.Done, ← hcount] at *; omega
  | pendingAdminToShareBackups => simp only [CeremonyCounts.Done] at *; omega
  | pendingGuardiansVerifyBackups => simp only [CeremonyCounts.Done, ← hcount] at *; omega

/-- Three guardians: all joined and announced, eight of nine backups; then the ninth arrives. -/
example : ceremonyState ⟨3, 3, 3, 8, 0, 0, false⟩ = .pendingGuardianBackups ∧
    ceremonyState ⟨3, 3, 3, 9, 0, 0, false⟩ = .pendingAdminToShareBackups ∧
    ceremonyState ⟨3, 3, 3, 9, 3, 6, true⟩ = .complete := by decide

end EG
