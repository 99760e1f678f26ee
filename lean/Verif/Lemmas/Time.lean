import Verif.Model.Time
import Verif.Lemmas.Hex
import Mathlib.Tactic.IntervalCases

/-!
# Lemmas about the calendar
-/

namespace EG

/-- A day that the calendar has. -/
def Date.Valid (d : Date) : Prop := 1 ≤ d.year ∧ 1 ≤ d.month ∧ d.month ≤ 12 ∧ 1 ≤ d.day ∧ d.day ≤ daysInMonth d.year d.month

/-- A time of day that the clock shows, on a day that the calendar has. -/
def DateTime.Valid (t : DateTime) : Prop :=
  t.date.Valid ∧ t.hour < 24 ∧ t.minute < 60 ∧ t.second < 60 ∧ t.micro < 1000000

theorem daysInMonth_pos (y m : Nat) : 28 ≤ daysInMonth y m := by
  unfold daysInMonth; split
  · split <;> omega
  · split <;> omega

theorem daysInMonth_le (y m : Nat) : daysInMonth y m ≤ 31 := by
  unfold daysInMonth; split
  · split <;> omega
  · split <;> omega

theorem daysBeforeMonth_succ (y m : Nat) (h : 1 ≤ m) :
    daysBeforeMonth y (m + 1) = daysBeforeMonth y m + daysInMonth y m := by
  cases m with
  | zero => omega
  | succ m => rfl

theorem daysBeforeYear_succ (y : Nat) (h : 1 ≤ y) :
    daysBeforeYear (y + 1) = daysBeforeYear y + (if isLeap y then 366 else 365) := by
  cases y with
  | zero => omega
  | succ m => rfl

theorem daysBeforeMonth_year (y : Nat) : daysBeforeMonth y 12 + daysInMonth y 12 = if isLeap y then 366 else 365 := by
  cases h : isLeap y <;> simp [daysBeforeMonth, daysInMonth, h]

theorem Date.next_valid {d : Date} (h : d.Valid) : d.next.Valid := by
  obtain ⟨h1, h2, h3, h4, h5⟩ := h
  unfold Date.next
  split
  · exact ⟨h1, h2, h3, by simp, by simp only; omega⟩
  · split
    · exact ⟨h1, by simp, by simp only; omega, by simp, by have := daysInMonth_pos d.year (d.month + 1); simp only; omega⟩
    · exact ⟨by simp, by simp, by simp, by simp, by have := daysInMonth_pos (d.year + 1) 1; simp only; omega⟩

theorem Date.next_ordinal {d : Date} (h : d.Valid) : d.next.ordinal = d.ordinal + 1 := by
  obtain ⟨h1, h2, h3, h4, h5⟩ := h
  unfold Date.next
  split
  · simp only [Date.ordinal]; omega
  · split
    · simp only [Date.ordinal, daysBeforeMonth_succ _ _ h2]; omega
    · have hm : d.month = 12 := by omega
      have hy := daysBeforeMonth_year d.year
      have h0 : daysBeforeMonth (d.year + 1) 1 = 0 := rfl
      rw [hm] at h5
      have hd : d.day = daysInMonth d.year 12 := by
        have : ¬ d.day < daysInMonth d.year d.month := by assumption
        rw [hm] at this; omega
      simp only [Date.ordinal, daysBeforeYear_succ _ h1, hm, h0, hd]
      omega

theorem iterate_next (n : Nat) (d : Date) (h : d.Valid) :
    (n.repeat Date.next d).Valid ∧ (n.repeat Date.next d).ordinal = d.ordinal + n := by
  induction n with
  | zero => exact ⟨h, rfl⟩
  | succ n ih =>
    refine ⟨Date.next_valid ih.1, ?_⟩
    show (Date.next (n.repeat Date.next d)).ordinal = _
    rw [Date.next_ordinal ih.1, ih.2]; omega

theorem dateOf_valid (n : Nat) : (dateOf n).Valid :=
  (iterate_next _ _ (by refine ⟨?_, ?_, ?_, ?_, ?_⟩ <;> decide)).1

theorem dateOf_ordinal (n : Nat) (h : 1 ≤ n) : (dateOf n).ordinal = n := by
  have := (iterate_next (n - 1) ⟨1, 1, 1⟩ (by refine ⟨?_, ?_, ?_, ?_, ?_⟩ <;> decide)).2
  unfold dateOf
  rw [this]
  simp only [Date.ordinal, daysBeforeYear, daysBeforeMonth]
  omega

theorem daysBeforeMonth_mono (y : Nat) {m n : Nat} (hm : 1 ≤ m) (h : m < n) :
    daysBeforeMonth y m + daysInMonth y m ≤ daysBeforeMonth y n := by
  induction n with
  | zero => omega
  | succ n ih =>
    rcases Nat.lt_or_ge m n with h' | h'
    · rw [daysBeforeMonth_succ y n (by omega)]
      have := ih h'; omega
    · have : m = n := by omega
      subst this
      rw [daysBeforeMonth_succ y m hm]

theorem daysBeforeYear_mono {x y : Nat} (hx : 1 ≤ x) (h : x < y) :
    daysBeforeYear x + (if isLeap x then 366 else 365) ≤ daysBeforeYear y := by
  induction y with
  | zero => omega
  | succ n ih =>
    rcases Nat.lt_or_ge x n with h' | h'
    · rw [daysBeforeYear_succ n (by omega)]
      have := ih h'; omega
    · have : x = n := by omega
      subst this
      rw [daysBeforeYear_succ x hx]

theorem Date.in_year {d : Date} (h : d.Valid) :
    daysBeforeMonth d.year d.month + d.day ≤ if isLeap d.year then 366 else 365 := by
  obtain ⟨h1, h2, h3, h4, h5⟩ := h
  have hy := daysBeforeMonth_year d.year
  rcases Nat.lt_or_ge d.month 12 with h' | h'
  · have := daysBeforeMonth_mono d.year h2 h'
    omega
  · have : d.month = 12 := by omega
    rw [this] at h5 ⊢
    omega

theorem Date.ordinal_inj {a b : Date} (ha : a.Valid) (hb : b.Valid) (h : a.ordinal = b.ordinal) : a = b := by
  have hya := Date.in_year ha
  have hyb := Date.in_year hb
  simp only [Date.ordinal] at h
  have hy : a.year = b.year := by
    rcases Nat.lt_trichotomy a.year b.year with h' | h' | h'
    · have := daysBeforeYear_mono ha.1 h'
      have := hb.2.2.2.1
      omega
    · exact h'
    · have := daysBeforeYear_mono hb.1 h'
      have := ha.2.2.2.1
      omega
  obtain ⟨a1, a2, a3, a4, a5⟩ := ha
  obtain ⟨b1, b2, b3, b4, b5⟩ := hb
  rw [hy] at h a5
  have hm : a.month = b.month := by
    rcases Nat.lt_trichotomy a.month b.month with h' | h' | h'
    · have := daysBeforeMonth_mono b.year a2 h'
      omega
    · exact h'
    · have := daysBeforeMonth_mono b.year b2 h'
      omega
  rw [hm] at h
  cases a; cases b
  simp only [Date.mk.injEq] at *
  refine ⟨hy, hm, by omega⟩

theorem Date.ordinal_pos {d : Date} (h : d.Valid) : 1 ≤ d.ordinal := by
  have := h.2.2.2.1
  unfold Date.ordinal; omega

theorem dateOf_of_ordinal {d : Date} (h : d.Valid) : dateOf d.ordinal = d :=
  Date.ordinal_inj (dateOf_valid _) h (dateOf_ordinal _ (Date.ordinal_pos h))

theorem ofWall_ok {s : Int} {micro : Nat} {zone : Option Int} (h1 : 86400 ≤ s) (h2 : s < 86400 * (maxOrdinal + 1)) :
    ∃ t, ofWall s micro zone = .ok t ∧ t.wall = s ∧ t.micro = micro ∧ t.zone = zone ∧
      (micro < 1000000 → t.Valid) := by
  have hn1 : ¬ (s / 86400 < 1 ∨ (maxOrdinal : Int) < s / 86400) := by unfold maxOrdinal at *; omega
  refine ⟨⟨dateOf (s / 86400).toNat, (s % 86400).toNat / 3600, (s % 86400).toNat % 3600 / 60,
    (s % 86400).toNat % 60, micro, zone⟩, by simp only [ofWall, if_neg hn1], ?_, rfl, rfl, ?_⟩
  · simp only [DateTime.wall]
    rw [dateOf_ordinal _ (by omega)]
    omega
  · intro hm
    exact ⟨dateOf_valid _, by simp only; omega, by simp only; omega, by simp only; omega, hm⟩

theorem ofWall_some {s : Int} {micro : Nat} {zone : Option Int} {t : DateTime} (h : ofWall s micro zone = .ok t) :
    86400 ≤ s ∧ s < 86400 * (maxOrdinal + 1) := by
  unfold ofWall at h
  simp only at h
  split at h
  · cases h
  · unfold maxOrdinal at *; omega

theorem ofWall_wall {s : Int} {micro : Nat} {zone : Option Int} {t : DateTime} (h : ofWall s micro zone = .ok t) :
    t.wall = s ∧ t.micro = micro ∧ t.zone = zone ∧ (micro < 1000000 → t.Valid) := by
  obtain ⟨h1, h2⟩ := ofWall_some h
  obtain ⟨t', ht', h3⟩ := ofWall_ok (micro := micro) (zone := zone) h1 h2
  rw [h] at ht'
  cases ht'
  exact h3

/-- Two valid times that show the same seconds show the same fields. -/
theorem wall_inj {a b : DateTime} (ha : a.Valid) (hb : b.Valid) (h : a.wall = b.wall) :
    a.date = b.date ∧ a.hour = b.hour ∧ a.minute = b.minute ∧ a.second = b.second := by
  obtain ⟨a1, a2, a3, a4, -⟩ := ha
  obtain ⟨b1, b2, b3, b4, -⟩ := hb
  unfold DateTime.wall at h
  have ho : a.date.ordinal = b.date.ordinal := by omega
  have hd := Date.ordinal_inj a1 b1 ho
  refine ⟨hd, ?_, ?_, ?_⟩ <;> omega

theorem char_digit_inj {a b : Nat} (ha : a < 10) (hb : b < 10) (h : Char.ofNat (48 + a) = Char.ofNat (48 + b)) : a = b := by
  interval_cases a <;> interval_cases b <;> first | rfl | exact absurd h (by decide)

theorem twoDigits_inj {a b : Nat} (ha : a < 100) (hb : b < 100) (h : twoDigits a = twoDigits b) : a = b := by
  simp only [twoDigits, List.cons.injEq, and_true] at h
  have h1 := char_digit_inj (by omega) (by omega) h.1
  have h2 := char_digit_inj (by omega) (by omega) h.2
  omega

theorem text_iff {a b : DateTime} (ha : a.Valid) (hb : b.Valid) : a.text = b.text ↔ a.wall = b.wall := by
  constructor
  · intro h
    unfold DateTime.text at h
    have hlen := List.append_inj' h (by simp [twoDigits])
    obtain ⟨hy, hr⟩ := hlen
    have hy' := decInt_inj hy
    obtain ⟨⟨a1, a2, a3, a4, a5⟩, a6, a7, a8, -⟩ := ha
    obtain ⟨⟨b1, b2, b3, b4, b5⟩, b6, b7, b8, -⟩ := hb
    have da := daysInMonth_le a.date.year a.date.month
    have db := daysInMonth_le b.date.year b.date.month
    simp only [List.cons_append, List.cons.injEq, true_and, List.append_assoc] at hr
    obtain ⟨e1, hr⟩ := List.append_inj hr (by simp [twoDigits])
    simp only [List.cons.injEq, true_and] at hr
    obtain ⟨e2, hr⟩ := List.append_inj hr (by simp [twoDigits])
    simp only [List.cons.injEq, true_and] at hr
    obtain ⟨e3, hr⟩ := List.append_inj hr (by simp [twoDigits])
    simp only [List.cons.injEq, true_and] at hr
    obtain ⟨e4, hr⟩ := List.append_inj hr (by simp [twoDigits])
    simp only [List.cons.injEq, true_and] at hr
    obtain ⟨e5, -⟩ := List.append_inj hr (by simp [twoDigits])
    have f1 := twoDigits_inj (by omega) (by omega) e1
    have f2 := twoDigits_inj (by omega) (by omega) e2
    have f3 := twoDigits_inj (by omega) (by omega) e3
    have f4 := twoDigits_inj (by omega) (by omega) e4
    have f5 := twoDigits_inj (by omega) (by omega) e5
    have f0 : a.date.year = b.date.year := by omega
    have hd : a.date = b.date := by
      cases hda : a.date; cases hdb : b.date
      simp only [hda, hdb] at *
      subst f0 f1 f2; rfl
    unfold DateTime.wall
    rw [hd, f3, f4, f5]
  · intro h
    obtain ⟨h1, h2, h3, h4⟩ := wall_inj ha hb h
    unfold DateTime.text
    rw [h1, h2, h3, h4]

end EG
