import Verif.Lemmas.Time

/-!
# C96: dates and times

What `to_ticks` and `to_iso_date_string` say about an instant, and which instant ballots are stamped with.
-/

namespace EG

/-- The instant that an aware time means: whole seconds since the epoch, with the offset of its zone taken off.  It is
stated by the calendar: the epoch is the midnight at which the first of January 1970 begins in UTC. -/
def DateTime.MeansSecond (t : DateTime) (s : Int) : Prop :=
  ∃ z, t.zone = some z ∧
    t.wall - z = (DateTime.mk ⟨1970, 1, 1⟩ 0 0 0 0 (some 0)).wall + s

theorem epoch_ordinal : ((Date.mk 1970 1 1).ordinal : Int) = epochOrdinal := by decide +kernel

theorem meansSecond_iff (t : DateTime) (s : Int) :
    t.MeansSecond s ↔ ∃ z, t.zone = some z ∧ s = t.wall - z - epochOrdinal * 86400 := by
  have h : (DateTime.mk ⟨1970, 1, 1⟩ 0 0 0 0 (some 0)).wall = epochOrdinal * 86400 := by
    simp only [DateTime.wall, epoch_ordinal]; simp
  unfold DateTime.MeansSecond
  rw [h]
  constructor
  · rintro ⟨z, h1, h2⟩; exact ⟨z, h1, by omega⟩
  · rintro ⟨z, h1, h2⟩; exact ⟨z, h1, by omega⟩

/-- **C96.**  Days and their numbers: every number from 1 on is the number of exactly one day of the calendar, the day
after has the next number, and a day is found again from its number. -/
theorem C96_calendar :
    (∀ n, 1 ≤ n → (dateOf n).Valid ∧ (dateOf n).ordinal = n) ∧
    (∀ d : Date, d.Valid → dateOf d.ordinal = d ∧ d.next.Valid ∧ d.next.ordinal = d.ordinal + 1) ∧
    (∀ a b : Date, a.Valid → b.Valid → a.ordinal = b.ordinal → a = b) :=
  ⟨fun n h => ⟨dateOf_valid n, dateOf_ordinal n h⟩,
   fun _ h => ⟨dateOf_of_ordinal h, Date.next_valid h, Date.next_ordinal h⟩,
   fun _ _ ha hb h => Date.ordinal_inj ha hb h⟩

example : (Date.mk 2020 2 29).Valid ∧ (Date.mk 2020 2 29).next = ⟨2020, 3, 1⟩ ∧ ¬ (Date.mk 1900 2 29).Valid := by
  refine ⟨?_, by decide, ?_⟩
  · refine ⟨?_, ?_, ?_, ?_, ?_⟩ <;> decide
  · rintro ⟨-, -, -, -, h⟩; exact absurd h (by decide)

theorem daysBeforeYear_closed (y : Nat) : daysBeforeYear (y + 1) = 365 * y + y / 4 - y / 100 + y / 400 := by
  induction y with
  | zero => rfl
  | succ y ih =>
    rw [daysBeforeYear_succ (y + 1) (by omega), ih]
    have hl : isLeap (y + 1) = true ↔ (y + 1) % 4 = 0 ∧ ((y + 1) % 100 ≠ 0 ∨ (y + 1) % 400 = 0) := by
      simp [isLeap]
    by_cases h : isLeap (y + 1) = true
    · rw [if_pos h]
      have := hl.mp h
      omega
    · rw [if_neg h]
      have := fun x => h (hl.mpr x)
      by_cases h4 : (y + 1) % 4 = 0
      · have : (y + 1) % 100 = 0 ∧ (y + 1) % 400 ≠ 0 := by
          constructor
          · by_contra hc; exact this ⟨h4, Or.inl hc⟩
          · intro hc; exact this ⟨h4, Or.inr hc⟩
        omega
      · omega

/-- **C96.**  The calendar is the Gregorian one: the number of the first of January has the closed form that Python
uses, and the twelve months have the lengths of the usual table, with the 29th of February in the years divisible by
4 and not by 100, or by 400. -/
theorem C96_gregorian (y : Nat) :
    (Date.mk (y + 1) 1 1).ordinal = 365 * y + y / 4 - y / 100 + y / 400 + 1 ∧
    (List.range 12).map (fun m => daysInMonth y (m + 1)) =
      [31, if (4 ∣ y ∧ ¬ 100 ∣ y) ∨ 400 ∣ y then 29 else 28, 31, 30, 31, 30, 31, 31, 30, 31, 30, 31] := by
  constructor
  · simp only [Date.ordinal, daysBeforeYear_closed, daysBeforeMonth]
  · have hl : isLeap y = true ↔ (4 ∣ y ∧ ¬ 100 ∣ y) ∨ 400 ∣ y := by
      simp only [isLeap, Bool.and_eq_true, Bool.or_eq_true, beq_iff_eq, bne_iff_ne]
      omega
    by_cases h : isLeap y = true
    · rw [if_pos (hl.mp h)]; simp [daysInMonth, h, List.range_succ]
    · rw [if_neg (fun x => h (hl.mpr x))]; simp [daysInMonth, h, List.range_succ]

example : (Date.mk 2000 1 1).ordinal = 730120 := (C96_gregorian 1999).1

/-- **C96.**  `to_ticks` of an aware time after the epoch is the second it means, on every machine. -/
theorem C96_ticks (loc : Int) (t : DateTime) (s : Int) (h : t.MeansSecond s) (h0 : 0 ≤ s) (hm : t.micro < 1000000) :
    toTicks loc t = .ok s := by
  obtain ⟨z, hz, hs⟩ := (meansSecond_iff t s).mp h
  simp only [toTicks, hz, Option.isSome_some, if_true, bind, Except.bind, pure, Except.pure, DateTime.timestamp,
    Option.getD_some, ← hs]
  congr 1
  rw [Int.tdiv_eq_ediv_of_nonneg (by omega)]
  omega

/-- 2020-03-02 at half past six in the morning, two hours ahead of UTC. -/
private def toyTime : DateTime := ⟨⟨2020, 3, 2⟩, 6, 30, 5, 250000, some 7200⟩

example : toyTime.MeansSecond 1583123405 := ⟨7200, rfl, by decide +kernel⟩
example : toTicks (-18000) toyTime = .ok 1583123405 :=
  C96_ticks _ _ _ ⟨7200, rfl, by decide +kernel⟩ (by decide) (by decide)

/-- **C96, a deviation.**  Before the epoch the fraction is cut the wrong way: half a second before it and half a
second after it have the same number of ticks, although they mean different seconds. -/
theorem C96_epoch_fails : ∃ a b : DateTime, a.Valid ∧ b.Valid ∧ a.MeansSecond (-1) ∧ b.MeansSecond 0 ∧
    ∀ loc, toTicks loc a = .ok 0 ∧ toTicks loc b = .ok 0 := by
  refine ⟨⟨⟨1969, 12, 31⟩, 23, 59, 59, 500000, some 0⟩, ⟨⟨1970, 1, 1⟩, 0, 0, 0, 500000, some 0⟩,
    ?_, ?_, ⟨0, rfl, by decide +kernel⟩, ⟨0, rfl, by decide +kernel⟩, fun loc => ⟨?_, ?_⟩⟩
  · refine ⟨⟨?_, ?_, ?_, ?_, ?_⟩, ?_, ?_, ?_, ?_⟩ <;> decide
  · refine ⟨⟨?_, ?_, ?_, ?_, ?_⟩, ?_, ?_, ?_, ?_⟩ <;> decide
  · exact congrArg Except.ok (by decide +kernel)
  · exact congrArg Except.ok (by decide +kernel)

/-- **C96.**  The dates that go into the manifest hash: the texts of two aware times are the same exactly when the
times mean the same second, whatever zones they are given in and whatever the machine. -/
theorem C96_iso (loc loc' : Int) {a b : DateTime} {s r : Int} (ha : a.Valid) (hb : b.Valid)
    (hs : a.MeansSecond s) (hr : b.MeansSecond r) {x y : List Char}
    (hx : toIsoDateString loc a = .ok x) (hy : toIsoDateString loc' b = .ok y) : x = y ↔ s = r := by
  obtain ⟨z, hz, hs⟩ := (meansSecond_iff a s).mp hs
  obtain ⟨w, hw, hr⟩ := (meansSecond_iff b r).mp hr
  have key : ∀ {l : Int} {t : DateTime} {q : Int} {o : List Char}, t.Valid → t.zone = some q →
      toIsoDateString l t = .ok o → ∃ u : DateTime, u.Valid ∧ u.wall = t.wall - q ∧ o = u.text := by
    intro l t q o ht hq ho
    simp only [toIsoDateString, hq, Option.isSome_some, if_true, bind, Except.bind, pure, Except.pure,
      DateTime.toUtc, Option.getD_some] at ho
    split at ho
    · cases ho
    · rename_i u hu
      obtain ⟨h1, h2, h3, h4⟩ := ofWall_wall hu
      have hv := h4 ht.2.2.2.2
      cases ho
      exact ⟨{ u with micro := 0 }, ⟨hv.1, hv.2.1, hv.2.2.1, hv.2.2.2.1, by simp⟩, h1, rfl⟩
  obtain ⟨u, hu1, hu2, hu3⟩ := key ha hz hx
  obtain ⟨v, hv1, hv2, hv3⟩ := key hb hw hy
  rw [hu3, hv3, text_iff hu1 hv1, hu2, hv2, hs, hr]
  omega

/-- **C96.**  The text of an aware time exists whenever its instant, in UTC, lies in the years 1 to 9999, and it is the
text of the UTC time with the same instant. -/
theorem C96_iso_exists (loc : Int) {t : DateTime} {z : Int} (ht : t.Valid) (hz : t.zone = some z)
    (h1 : 86400 ≤ t.wall - z) (h2 : t.wall - z < 86400 * (maxOrdinal + 1)) :
    ∃ u : DateTime, u.Valid ∧ u.zone = some 0 ∧ u.wall = t.wall - z ∧ toIsoDateString loc t = .ok u.text := by
  obtain ⟨u, hu, h3, h4, h5, h6⟩ := ofWall_ok (micro := t.micro) (zone := some 0) h1 h2
  have hv := h6 ht.2.2.2.2
  refine ⟨{ u with micro := 0 }, ⟨hv.1, hv.2.1, hv.2.2.1, hv.2.2.2.1, by simp⟩, h5, h3, ?_⟩
  simp only [toIsoDateString, hz, Option.isSome_some, if_true, bind, Except.bind, pure, Except.pure,
    DateTime.toUtc, Option.getD_some, hu]

example : toyTime.text = "2020-03-02T06:30:05Z".toList := by decide +kernel
example : (DateTime.mk ⟨2020, 3, 2⟩ 4 30 5 0 (some 0)).wall = toyTime.wall - 7200 := by decide +kernel

/-- **C96, a deviation.**  Naive times: `to_iso_date_string` reads them as UTC and `to_ticks` as local time.  On a
machine that is not on UTC the text and the ticks of one naive time mean different seconds. -/
theorem C96_naive_fails (loc : Int) (t : DateTime) (hn : t.zone = none) (hv : t.Valid)
    (h1 : 86400 ≤ t.wall - loc) (h2 : t.wall - loc < 86400 * (maxOrdinal + 1))
    (h0 : 0 ≤ t.wall - loc - epochOrdinal * 86400) :
    toIsoDateString loc t = .ok { t with zone := some 0 }.text ∧
    { t with zone := some 0 }.MeansSecond (t.wall - epochOrdinal * 86400) ∧
    toTicks loc t = .ok (t.wall - epochOrdinal * 86400 - loc) := by
  refine ⟨?_, ?_, ?_⟩
  · simp only [toIsoDateString, hn, Option.isSome_none, bind, Except.bind, pure, Except.pure]
    rfl
  · exact (meansSecond_iff _ _).mpr ⟨0, rfl, by show _ = t.wall - 0 - _; omega⟩
  · obtain ⟨u, hu, h3, h4, h5, -⟩ := ofWall_ok (micro := t.micro) (zone := some 0) h1 h2
    have hm := hv.2.2.2.2
    simp only [toTicks, hn, Option.isSome_none, bind, Except.bind, pure, Except.pure,
      DateTime.toUtc, Option.getD_none, hu, DateTime.timestamp, h5, h3, h4, Option.getD_some]
    show Except.ok _ = _
    congr 1
    rw [Int.tdiv_eq_ediv_of_nonneg (by omega)]
    omega

/-- **C96.**  The time of a ballot made by `make_ciphertext_ballot` is the clock, in seconds, whatever the zone of the
machine. -/
theorem C96_new_ballot_time (loc clock : Int) (h0 : 0 ≤ clock) (h1 : -86400 < loc ∧ loc < 86400)
    (h2 : clock < 253402214400 * 1000000) : newBallotTime loc clock = .ok (clock / 1000000) := by
  obtain ⟨t, ht, h3, h4, h5, h6⟩ := ofWall_ok (s := clock / 1000000 + epochOrdinal * 86400 + loc)
    (micro := (clock % 1000000).toNat) (zone := none) (by unfold epochOrdinal; omega)
    (by unfold epochOrdinal maxOrdinal; omega)
  have hm : t.micro < 1000000 := by rw [h4]; omega
  obtain ⟨u, hu, g3, g4, g5, -⟩ := ofWall_ok (s := t.wall - loc) (micro := t.micro) (zone := some 0)
    (by rw [h3]; unfold epochOrdinal; omega) (by rw [h3]; unfold epochOrdinal maxOrdinal; omega)
  have := C96_ticks loc u (clock / 1000000)
    ((meansSecond_iff _ _).mpr ⟨0, g5, by rw [g3, h3]; omega⟩) (by omega) (by rw [g4]; exact hm)
  simp only [newBallotTime, pyNow, ht, bind, Except.bind]
  simp only [toTicks, h5, Option.isSome_none, bind, Except.bind, pure, Except.pure, DateTime.toUtc,
    Option.getD_none, hu, Bool.false_eq_true, if_false]
  simpa only [toTicks, g5, Option.isSome_some, if_true, bind, Except.bind, pure, Except.pure] using this

example : newBallotTime (-18000) 1700000000123456 = .ok 1700000000 :=
  C96_new_ballot_time _ _ (by decide) (by decide) (by decide)

/-- **C96, a deviation.**  The time of a ballot made by `make_ciphertext_submitted_ballot` and of an encryption device
is the clock less the offset of the machine: `utcnow` gives a naive time, which is then read as local time.  It is
right exactly on machines whose zone is UTC. -/
theorem C96_submitted_time_fails (loc clock : Int) (h0 : 86400 * 1000000 ≤ clock) (h1 : -86400 < loc ∧ loc < 86400)
    (h2 : clock < 253402214400 * 1000000) :
    submittedBallotTime loc clock = .ok (clock / 1000000 - loc) ∧
    deviceTimestamp loc clock = .ok (clock / 1000000 - loc) ∧
    (submittedBallotTime loc clock = newBallotTime loc clock ↔ loc = 0) := by
  obtain ⟨t, ht, h3, h4, h5, h6⟩ := ofWall_ok (s := clock / 1000000 + epochOrdinal * 86400)
    (micro := (clock % 1000000).toNat) (zone := none) (by unfold epochOrdinal; omega)
    (by unfold epochOrdinal maxOrdinal; omega)
  have hm : t.micro < 1000000 := by rw [h4]; omega
  obtain ⟨u, hu, g3, g4, g5, -⟩ := ofWall_ok (s := t.wall - loc) (micro := t.micro) (zone := some 0)
    (by rw [h3]; unfold epochOrdinal; omega) (by rw [h3]; unfold epochOrdinal maxOrdinal; omega)
  have ticks := C96_ticks loc u (clock / 1000000 - loc)
    ((meansSecond_iff _ _).mpr ⟨0, g5, by rw [g3, h3]; omega⟩) (by omega) (by rw [g4]; exact hm)
  simp only [toTicks, g5, Option.isSome_some, if_true, bind, Except.bind, pure, Except.pure] at ticks
  have e1 : submittedBallotTime loc clock = .ok (clock / 1000000 - loc) := by
    simp only [submittedBallotTime, pyUtcNow, ht, bind, Except.bind]
    simp only [toTicks, h5, Option.isSome_none, bind, Except.bind, pure, Except.pure, DateTime.toUtc,
      Option.getD_none, hu]
    exact ticks
  have e2 : deviceTimestamp loc clock = .ok (clock / 1000000 - loc) := by
    simp only [deviceTimestamp, pyUtcNow, ht, bind, Except.bind, pure, Except.pure, DateTime.toUtc, h5,
      Option.getD_none, hu]
    exact ticks
  refine ⟨e1, e2, ?_⟩
  rw [e1, C96_new_ballot_time loc clock (by omega) h1 h2, Except.ok.injEq]
  omega

example : submittedBallotTime 3600 1700000000123456 = .ok 1699996400 :=
  (C96_submitted_time_fails 3600 1700000000123456 (by decide) (by decide) (by decide)).1

end EG
