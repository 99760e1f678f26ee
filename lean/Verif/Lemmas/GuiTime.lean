import Verif.Model.GuiTime
import Verif.Props.Time

/-!
# Lemmas on the times that the GUI shows
-/

namespace EG

theorem sep_inj {c : Char} {a b x y : List Char} (ha : c ∉ a) (hb : c ∉ b) (h : a ++ c :: x = b ++ c :: y) : a = b ∧ x = y := by
  induction a generalizing b with
  | nil =>
    cases b with
    | nil => simpa using h
    | cons z b =>
      simp only [List.nil_append, List.cons_append, List.cons.injEq] at h
      exact absurd (by rw [h.1]; exact List.mem_cons_self) hb
  | cons w a ih =>
    cases b with
    | nil =>
      simp only [List.nil_append, List.cons_append, List.cons.injEq] at h
      exact absurd (by rw [h.1]; exact List.mem_cons_self) ha
    | cons z b =>
      simp only [List.cons_append, List.cons.injEq] at h
      obtain ⟨h1, h2⟩ := ih (fun hm => ha (List.mem_cons_of_mem _ hm)) (fun hm => hb (List.mem_cons_of_mem _ hm)) h.2
      exact ⟨by rw [h.1, h1], h2⟩

theorem decInt_no (i : Int) {c : Char} (hc : c ≠ '-') (hu : ¬ IsUpperHex c) : c ∉ decInt i := by
  intro h
  rcases decInt_chars i c h with h | h
  · exact hc h
  · exact hu h

theorem monthAbbr_inj {a b : Nat} (ha : 1 ≤ a ∧ a ≤ 12) (hb : 1 ≤ b ∧ b ≤ 12) (h : monthAbbr a = monthAbbr b) : a = b := by
  obtain ⟨a1, a2⟩ := ha
  obtain ⟨b1, b2⟩ := hb
  interval_cases a <;> interval_cases b <;> first | rfl | exact absurd h (by decide)

theorem monthAbbr_length {a : Nat} (ha : 1 ≤ a ∧ a ≤ 12) : (monthAbbr a).length = 3 := by
  obtain ⟨a1, a2⟩ := ha
  interval_cases a <;> rfl

theorem hour_inj {a b : Nat} (ha : a < 24) (hb : b < 24) (h1 : hour12 a = hour12 b)
    (h2 : (if a < 12 then "AM".toList else "PM".toList) = (if b < 12 then "AM".toList else "PM".toList)) : a = b := by
  have hp : a < 12 ↔ b < 12 := by
    by_cases x : a < 12 <;> by_cases y : b < 12 <;> simp [x, y] at h2 ⊢
  unfold hour12 at h1
  split at h1 <;> split at h1 <;> omega

/-- Two times are shown alike exactly when they have the same day, hour and minute. -/
theorem shown_iff {a b : DateTime} (ha : a.Valid) (hb : b.Valid) : a.shown = b.shown ↔ a.date = b.date ∧ a.hour = b.hour ∧ a.minute = b.minute := by
  constructor
  · intro h
    obtain ⟨⟨a1, a2, a3, a4, a5⟩, a6, a7, a8, -⟩ := ha
    obtain ⟨⟨b1, b2, b3, b4, b5⟩, b6, b7, b8, -⟩ := hb
    unfold DateTime.shown at h
    obtain ⟨e1, h⟩ := List.append_inj h (by rw [monthAbbr_length ⟨a2, a3⟩, monthAbbr_length ⟨b2, b3⟩])
    simp only [List.cons.injEq, true_and] at h
    obtain ⟨e2, h⟩ := sep_inj (decInt_no _ (by decide) (by unfold IsUpperHex; decide)) (decInt_no _ (by decide) (by unfold IsUpperHex; decide)) h
    simp only [List.cons.injEq, true_and] at h
    obtain ⟨e3, h⟩ := sep_inj (decInt_no _ (by decide) (by unfold IsUpperHex; decide)) (decInt_no _ (by decide) (by unfold IsUpperHex; decide)) h
    obtain ⟨e4, h⟩ := sep_inj (decInt_no _ (by decide) (by unfold IsUpperHex; decide)) (decInt_no _ (by decide) (by unfold IsUpperHex; decide)) h
    obtain ⟨e5, h⟩ := List.append_inj h (by simp [twoDigits])
    simp only [List.cons.injEq, true_and] at h
    have f1 := monthAbbr_inj ⟨a2, a3⟩ ⟨b2, b3⟩ e1
    have f2 : a.date.day = b.date.day := by have := decInt_inj e2; omega
    have f3 : a.date.year = b.date.year := by have := decInt_inj e3; omega
    have f4 := hour_inj a6 b6 (by have := decInt_inj e4; omega) h
    have f5 := twoDigits_inj (by omega) (by omega) e5
    refine ⟨?_, f4, f5⟩
    cases hda : a.date; cases hdb : b.date
    simp only [hda, hdb] at *
    subst f1 f2 f3; rfl
  · rintro ⟨h1, h2, h3⟩
    unfold DateTime.shown
    rw [h1, h2, h3]

theorem minute_iff {a b : DateTime} (ha : a.Valid) (hb : b.Valid) : (a.date = b.date ∧ a.hour = b.hour ∧ a.minute = b.minute) ↔ a.wall / 60 = b.wall / 60 := by
  obtain ⟨a1, a2, a3, a4, -⟩ := ha
  obtain ⟨b1, b2, b3, b4, -⟩ := hb
  unfold DateTime.wall
  constructor
  · rintro ⟨h1, h2, h3⟩
    rw [h1, h2, h3]
    omega
  · intro h
    have ho : a.date.ordinal = b.date.ordinal := by omega
    exact ⟨Date.ordinal_inj a1 b1 ho, by omega, by omega⟩

theorem monthAbbr_eq {a : Nat} (ha : 1 ≤ a ∧ a ≤ 12) : monthAbbr a = ("JanFebMarAprMayJunJulAugSepOctNovDec".toList.drop (3 * (a - 1))).take 3 := by
  obtain ⟨a1, a2⟩ := ha
  interval_cases a <;> decide

theorem utcToStr_of_wall (loc : Int) (t u : DateTime) (ht : t.Valid) (hu : u.Valid) (h : u.wall = t.wall + loc)
    (h1 : 86400 ≤ t.wall + loc) (h2 : t.wall + loc < 86400 * (maxOrdinal + 1)) : utcToStr loc (some t) = .ok u.shown := by
  obtain ⟨l, hl, hw, -, -, hval⟩ := ofWall_ok (micro := t.micro) (zone := some loc) h1 h2
  simp only [utcToStr, convertUtcToLocal, hl, bind, Except.bind, pure, Except.pure]
  rw [(shown_iff (hval ht.2.2.2.2) hu).2 ((minute_iff (hval ht.2.2.2.2) hu).2 (by rw [hw, h]))]

end EG
