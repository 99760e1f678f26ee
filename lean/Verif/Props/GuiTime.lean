import Verif.Lemmas.GuiTime

/-!
# C123: the times that the GUI shows
-/

namespace EG

/-- C123 A time in UTC is shown as the local time of the same moment: the day, the hour on the twelve-hour clock and the minute of the time that the machine's
clock had then.  It is shown whenever the local time is in the years 1 to 9999, and for no time there is no text. -/
theorem C123_shown (loc : Int) (t : DateTime) (hv : t.Valid) (h1 : 86400 ≤ t.wall + loc) (h2 : t.wall + loc < 86400 * (maxOrdinal + 1)) :
    utcToStr loc none = .ok [] ∧ ∃ l : DateTime, l.Valid ∧ l.zone = some loc ∧ l.wall - loc = t.wall ∧ ∃ k : Nat, 1 ≤ k ∧ k ≤ 12 ∧ k % 12 = l.hour % 12 ∧
      utcToStr loc (some t) = .ok (("JanFebMarAprMayJunJulAugSepOctNovDec".toList.drop (3 * (l.date.month - 1))).take 3 ++ " ".toList ++ decInt l.date.day ++ ", ".toList ++ decInt l.date.year ++ " ".toList ++ decInt k ++
        ":".toList ++ twoDigits l.minute ++ (if 12 ≤ l.hour then " PM".toList else " AM".toList)) := by
  refine ⟨rfl, ?_⟩
  obtain ⟨l, hl, hw, -, hz, hval⟩ := ofWall_ok (micro := t.micro) (zone := some loc) h1 h2
  refine ⟨l, hval hv.2.2.2.2, hz, by omega, hour12 l.hour, ?_, ?_, ?_, ?_⟩
  · unfold hour12; split <;> omega
  · unfold hour12; split <;> omega
  · unfold hour12; split <;> omega
  · have hd := (hval hv.2.2.2.2).1
    rw [← monthAbbr_eq ⟨hd.2.1, hd.2.2.1⟩]
    simp only [utcToStr, convertUtcToLocal, hl, bind, Except.bind, pure, Except.pure, DateTime.shown]
    by_cases hh : l.hour < 12
    · rw [if_pos hh, if_neg (by omega)]; simp
    · rw [if_neg hh, if_pos (by omega)]; simp

/-- C123 Two times in UTC are shown alike exactly when the local clock showed the same minute; the offset of the clock may have changed in between. -/
theorem C123_same (la lb : Int) (a b : DateTime) (ha : a.Valid) (hb : b.Valid) {x y : List Char}
    (hx : utcToStr la (some a) = .ok x) (hy : utcToStr lb (some b) = .ok y) : x = y ↔ (a.wall + la) / 60 = (b.wall + lb) / 60 := by
  have key : ∀ {loc : Int} {t : DateTime} {o : List Char}, t.Valid → utcToStr loc (some t) = .ok o →
      ∃ u : DateTime, u.Valid ∧ u.wall = t.wall + loc ∧ o = u.shown := by
    intro loc t o ht ho
    simp only [utcToStr, convertUtcToLocal, bind, Except.bind, pure, Except.pure] at ho
    split at ho
    · cases ho
    · rename_i u hu
      obtain ⟨h1, -, -, h4⟩ := ofWall_wall hu
      cases ho
      exact ⟨u, h4 ht.2.2.2.2, h1, rfl⟩
  obtain ⟨u, hu1, hu2, rfl⟩ := key ha hx
  obtain ⟨v, hv1, hv2, rfl⟩ := key hb hy
  rw [shown_iff hu1 hv1, minute_iff hu1 hv1, hu2, hv2]

/-- C123 A time whose local time is outside the years 1 to 9999 raises. -/
theorem C123_raises (loc : Int) (t : DateTime) :
    (∃ e, utcToStr loc (some t) = .error e) ↔ (t.wall + loc < 86400 ∨ 86400 * (maxOrdinal + 1) ≤ t.wall + loc) := by
  constructor
  · rintro ⟨e, he⟩
    refine Classical.byContradiction fun hn => ?_
    obtain ⟨l, hl, -⟩ := ofWall_ok (s := t.wall + loc) (micro := t.micro) (zone := some loc) (by omega) (by omega)
    simp only [utcToStr, convertUtcToLocal, hl, bind, Except.bind, pure, Except.pure] at he
    cases he
  · intro h
    simp only [utcToStr, convertUtcToLocal, bind, Except.bind, pure, Except.pure]
    split
    · exact ⟨_, rfl⟩
    · rename_i u hu
      have := ofWall_some hu
      omega

/-- C123 The finding: when the clocks are put back, a time in the hour before and the time an hour later are shown alike, for every pair of offsets. -/
theorem C123_put_back_fails (before after : Int) (h : after < before) (a : DateTime) (b : DateTime) (ha : a.Valid) (hb : b.Valid)
    (hab : b.wall = a.wall + (before - after)) (h1 : 86400 ≤ a.wall + before) (h2 : a.wall + before < 86400 * (maxOrdinal + 1)) :
    a.wall < b.wall ∧ ∃ x, utcToStr before (some a) = .ok x ∧ utcToStr after (some b) = .ok x := by
  refine ⟨by omega, ?_⟩
  obtain ⟨-, l, -, -, -, k, -, -, -, hx⟩ := C123_shown before a ha h1 h2
  obtain ⟨-, l', -, -, -, k', -, -, -, hy⟩ := C123_shown after b hb (by omega) (by omega)
  refine ⟨_, hx, ?_⟩
  rw [hy, (C123_same before after a b ha hb hx hy).2 (by rw [hab, show a.wall + (before - after) + after = a.wall + before by omega])]

example : (DateTime.mk ⟨2020, 10, 25⟩ 1 30 0 0 none).wall = (DateTime.mk ⟨2020, 10, 25⟩ 0 30 0 0 none).wall + (7200 - 3600) := by decide +kernel

/-- C123 The finding: a time that carries a zone is shown as if its fields were UTC, so one moment is shown in two ways on the same machine. -/
theorem C123_zone_fails (loc : Int) (h1 : -86400 < loc ∧ loc < 86400) : ∃ a b : DateTime, a.Valid ∧ b.Valid ∧ ∃ s, a.MeansSecond s ∧ b.MeansSecond s ∧
    ∃ x y, utcToStr loc (some a) = .ok x ∧ utcToStr loc (some b) = .ok y ∧ x ≠ y := by
  let a : DateTime := ⟨⟨2020, 3, 2⟩, 4, 30, 5, 0, some 0⟩
  let b : DateTime := ⟨⟨2020, 3, 2⟩, 6, 30, 5, 0, some 7200⟩
  have wa : a.wall = 63718806605 := by decide +kernel
  have wb : b.wall = 63718813805 := by decide +kernel
  have va : a.Valid := by refine ⟨⟨?_, ?_, ?_, ?_, ?_⟩, ?_, ?_, ?_, ?_⟩ <;> decide
  have vb : b.Valid := by refine ⟨⟨?_, ?_, ?_, ?_, ?_⟩, ?_, ?_, ?_, ?_⟩ <;> decide
  refine ⟨a, b, va, vb, a.wall - epochOrdinal * 86400, (meansSecond_iff _ _).2 ⟨0, rfl, by omega⟩, (meansSecond_iff _ _).2 ⟨7200, rfl, by omega⟩, ?_⟩
  obtain ⟨_, _, _, _, _, _, _, _, _, hx⟩ := C123_shown loc a va (by omega) (by unfold maxOrdinal; omega)
  obtain ⟨_, _, _, _, _, _, _, _, _, hy⟩ := C123_shown loc b vb (by omega) (by unfold maxOrdinal; omega)
  refine ⟨_, _, hx, hy, ?_⟩
  rw [ne_eq, C123_same loc loc a b va vb hx hy]
  omega

/-- On a machine an hour ahead of UTC. -/
example : utcToStr 3600 (some ⟨⟨2020, 2, 29⟩, 23, 5, 59, 0, none⟩) = .ok "Mar 1, 2020 12:05 AM".toList := by
  have hw : (DateTime.mk ⟨2020, 2, 29⟩ 23 5 59 0 none).wall = 63718700759 := by decide +kernel
  have hu : (DateTime.mk ⟨2020, 3, 1⟩ 0 5 59 0 (some 3600)).wall = 63718704359 := by decide +kernel
  rw [utcToStr_of_wall 3600 _ ⟨⟨2020, 3, 1⟩, 0, 5, 59, 0, some 3600⟩ (by refine ⟨⟨?_, ?_, ?_, ?_, ?_⟩, ?_, ?_, ?_, ?_⟩ <;> decide)
    (by refine ⟨⟨?_, ?_, ?_, ?_, ?_⟩, ?_, ?_, ?_, ?_⟩ <;> decide) (by rw [hw, hu]; rfl) (by rw [hw]; decide) (by rw [hw]; decide)]
  exact congrArg Except.ok (by decide +kernel)

end EG
