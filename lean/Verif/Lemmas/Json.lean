import Verif.Model.Json
import Verif.Lemmas.Hex
import Verif.Lemmas.Dict
import Verif.Lemmas.KeyCeremonyMediator

/-!
# JSON text: what is written is read back
-/

namespace EG

/-! ### Strings -/

theorem hexVal_hexLower {d : Nat} (h : d < 16) : hexVal (hexLower d) = some d := by
  revert h; revert d; decide

theorem unitVal_escape {n : Nat} (h : n < 65536) :
    unitVal (hexLower (n / 4096 % 16)) (hexLower (n / 256 % 16)) (hexLower (n / 16 % 16)) (hexLower (n % 16)) = some n := by
  unfold unitVal
  rw [hexVal_hexLower (Nat.mod_lt _ (by decide)), hexVal_hexLower (Nat.mod_lt _ (by decide)),
    hexVal_hexLower (Nat.mod_lt _ (by decide)), hexVal_hexLower (Nat.mod_lt _ (by decide))]
  simp only [Option.some.injEq]
  omega

theorem stringStep_escape (c : Char) (t : List Char) : stringStep (escapeChar c ++ t) = some (some c, t) := by
  have hvalid := c.valid
  have hn : c.toNat < 0xD800 ∨ (0xDFFF < c.toNat ∧ c.toNat < 0x110000) := hvalid
  unfold escapeChar
  split
  · next h => subst h; rfl
  split
  · next h => subst h; rfl
  split
  · next h => subst h; rfl
  split
  · next h => subst h; rfl
  split
  · next h => subst h; rfl
  split
  · next h => subst h; rfl
  split
  · next h => subst h; rfl
  next h1 h2 h3 h4 h5 h6 h7 =>
  split
  · next h =>
    rw [List.cons_append, List.nil_append]
    have : ¬ (c = '\\' ∨ c.toNat < 32) := by rintro (h' | h') <;> [exact h2 h'; omega]
    unfold stringStep
    split
    · next h => cases h
    · next h => exact absurd (List.cons.inj h).1 h1
    · next h => exact absurd (List.cons.inj h).1 h2
    · next h => exact absurd (List.cons.inj h).1 h2
    · next h =>
      obtain ⟨rfl, rfl⟩ := List.cons.inj h
      rw [if_neg this]
  split
  · next h h' =>
    unfold escapeUnit
    simp only [List.cons_append, List.nil_append, stringStep, unitVal_escape h']
    rw [if_neg (by omega), if_neg (by omega), Char.ofNat_toNat]
  · next h h' =>
    have hc : c.toNat < 0x110000 := by rcases hn with hn | hn <;> omega
    unfold escapeUnit
    simp only [List.cons_append, List.nil_append, stringStep]
    rw [unitVal_escape (by omega)]
    dsimp only
    rw [if_pos (by omega), unitVal_escape (by omega)]
    dsimp only
    rw [if_pos (by omega)]
    have : 65536 + (55296 + (c.toNat - 65536) / 1024 - 55296) * 1024 + (56320 + (c.toNat - 65536) % 1024 - 56320) = c.toNat := by omega
    rw [this, Char.ofNat_toNat]

theorem escapeChar_ne_nil (c : Char) : 1 ≤ (escapeChar c).length := by
  unfold escapeChar escapeUnit
  repeat' split
  all_goals simp

theorem length_le_flatMap_escape (s : List Char) : s.length ≤ (s.flatMap escapeChar).length := by
  induction s with
  | nil => simp
  | cons c s ih =>
    have := escapeChar_ne_nil c
    simp only [List.flatMap_cons, List.length_append, List.length_cons]
    omega

theorem parseChars_dump (s t : List Char) (f : Nat) (hf : s.length < f) :
    parseChars f (s.flatMap escapeChar ++ '"' :: t) = some (s, t) := by
  induction s generalizing f with
  | nil =>
    obtain ⟨f, rfl⟩ : ∃ g, f = g + 1 := ⟨f - 1, by simp at hf; omega⟩
    simp [parseChars, stringStep]
  | cons c s ih =>
    obtain ⟨f, rfl⟩ : ∃ g, f = g + 1 := ⟨f - 1, by simp at hf; omega⟩
    rw [List.flatMap_cons, List.append_assoc]
    unfold parseChars
    rw [stringStep_escape]
    dsimp only
    rw [ih f (by simp at hf; omega)]

theorem parseChars_dump' (s t : List Char) :
    parseChars (s.flatMap escapeChar ++ '"' :: t).length (s.flatMap escapeChar ++ '"' :: t) = some (s, t) := by
  refine parseChars_dump s t _ ?_
  have := length_le_flatMap_escape s
  simp only [List.length_append, List.length_cons]
  omega

/-! ### Numbers -/

/-- What can follow a number without being part of it. -/
def NumEnd (t : List Char) : Prop := ∀ c, t.head? = some c → isDecDigit c = false ∧ c ≠ '.' ∧ c ≠ 'e' ∧ c ≠ 'E'

theorem numberRest_end {t : List Char} (h : NumEnd t) (whole : List Char) (n : Int) : numberRest whole n t = some (.int n, t) := by
  have h1 : fractionLength t = 0 := by
    cases t with
    | nil => rfl
    | cons c t =>
      have := h c rfl
      unfold fractionLength
      split
      · next h' => exact absurd (List.cons.inj h').1 this.2.1
      · rfl
  have h2 : exponentLength t = 0 := by
    cases t with
    | nil => rfl
    | cons c t =>
      have := h c rfl
      unfold exponentLength
      dsimp only
      rw [if_neg (by rintro (h' | h') <;> simp [h'] at this)]
  unfold numberRest
  simp [h1, h2]

theorem head_digits' {n : Nat} (hn : 0 < n) : ∃ d ds, digits' 10 n = d :: ds ∧ 0 < d := by
  induction n using Nat.strong_induction_on with
  | _ n ih =>
    by_cases h : n < 10
    · exact ⟨n, [], digits'_lt h, hn⟩
    · obtain ⟨d, ds, h1, h2⟩ := ih (n / 10) (Nat.div_lt_self (by omega) (by omega)) (by omega)
      exact ⟨d, ds ++ [n % 10], by rw [digits'_ge (by norm_num) (by omega), h1]; rfl, h2⟩

theorem decVal_digits (n : Nat) : decVal ((digits' 10 n).map hexChar) = n := by
  have key : ∀ (ds : List Nat) (a : Nat), (∀ d ∈ ds, d < 10) →
      (ds.map hexChar).foldl (fun n c => 10 * n + (c.toNat - 48)) a = ds.foldl (fun acc d => 10 * acc + d) a := by
    intro ds
    induction ds with
    | nil => intro a _; rfl
    | cons d ds ih =>
      intro a h
      have hd : (hexChar d).toNat - 48 = d := by
        have := h d List.mem_cons_self
        revert this; clear h; revert d; decide
      rw [List.map_cons, List.foldl_cons, List.foldl_cons, hd]
      exact ih _ (fun x hx => h x (List.mem_cons_of_mem _ hx))
  unfold decVal
  rw [key _ _ (digits'_mem_lt (by norm_num) n)]
  exact ofDigits'_digits' (by norm_num) n

theorem isDecDigit_hexChar {d : Nat} (h : d < 10) : isDecDigit (hexChar d) = true := by
  revert h; revert d; decide

theorem takeWhile_digits (n : Nat) {t : List Char} (h : NumEnd t) :
    ((digits' 10 n).map hexChar ++ t).takeWhile isDecDigit = (digits' 10 n).map hexChar ∧
      ((digits' 10 n).map hexChar ++ t).dropWhile isDecDigit = t := by
  have hall : ∀ c ∈ (digits' 10 n).map hexChar, isDecDigit c = true := by
    intro c hc
    obtain ⟨d, hd, rfl⟩ := List.mem_map.1 hc
    exact isDecDigit_hexChar (digits'_mem_lt (by norm_num) n d hd)
  have ht : t.takeWhile isDecDigit = [] ∧ t.dropWhile isDecDigit = t := by
    cases t with
    | nil => exact ⟨rfl, rfl⟩
    | cons c t =>
      have := (h c rfl).1
      simp [this]
  rw [List.takeWhile_append_of_pos hall, List.dropWhile_append_of_pos hall, ht.1, ht.2, List.append_nil]
  exact ⟨rfl, rfl⟩

theorem parseDigits_dump (whole : List Char) (sign : Int) (n : Nat) {t : List Char} (h : NumEnd t) :
    parseDigits whole sign ((digits' 10 n).map hexChar ++ t) = some (.int (sign * n), t) := by
  rcases Nat.eq_zero_or_pos n with rfl | hn
  · rw [digits'_lt (by norm_num)]
    simp only [List.map_cons, List.map_nil, List.cons_append, List.nil_append, hexChar, parseDigits]
    rw [numberRest_end h]
    simp
  · obtain ⟨d, ds, h1, h2⟩ := head_digits' hn
    have hd : d < 10 := digits'_mem_lt (by norm_num) n d (by rw [h1]; exact List.mem_cons_self)
    have hc : hexChar d ≠ '0' ∧ hexChar d ≠ 'I' := by
      revert h2; revert hd; clear h1; revert d; decide
    have key : parseDigits whole sign ((digits' 10 n).map hexChar ++ t)
        = (if ((digits' 10 n).map hexChar ++ t).takeWhile isDecDigit = [] then none
            else numberRest whole (sign * decVal (((digits' 10 n).map hexChar ++ t).takeWhile isDecDigit))
              (((digits' 10 n).map hexChar ++ t).dropWhile isDecDigit)) := by
      unfold parseDigits
      split
      · next h' =>
        rw [h1] at h'
        exact absurd (List.cons.inj h').1 hc.1
      · next h' =>
        rw [h1] at h'
        exact absurd (List.cons.inj h').1 hc.2
      · rfl
    rw [key, (takeWhile_digits n h).1, (takeWhile_digits n h).2, if_neg (by simp [digits'_ne_nil]), decVal_digits,
      numberRest_end h]

theorem parseNumber_dump (n : Int) {t : List Char} (h : NumEnd t) : parseNumber (decInt n ++ t) = some (.int n, t) := by
  unfold decInt
  change parseNumber ((if n < 0 then '-' :: (digits' 10 n.natAbs).map hexChar else (digits' 10 n.natAbs).map hexChar) ++ t) = _
  split
  · simp only [List.cons_append, parseNumber]
    rw [parseDigits_dump _ _ _ h]
    congr 3
    omega
  · obtain ⟨d, ds, h1⟩ : ∃ d ds, digits' 10 n.natAbs = d :: ds := List.exists_cons_of_ne_nil (digits'_ne_nil _)
    have hd : d < 10 := digits'_mem_lt (by norm_num) n.natAbs d (by rw [h1]; exact List.mem_cons_self)
    have hc : hexChar d ≠ 'N' ∧ hexChar d ≠ '-' := by
      revert hd; clear h1; revert d; decide
    have key : parseNumber ((digits' 10 n.natAbs).map hexChar ++ t)
        = parseDigits ((digits' 10 n.natAbs).map hexChar ++ t) 1 ((digits' 10 n.natAbs).map hexChar ++ t) := by
      unfold parseNumber
      split
      · next h' =>
        rw [h1] at h'
        exact absurd (List.cons.inj h').1 hc.1
      · next h' =>
        rw [h1] at h'
        exact absurd (List.cons.inj h').1 hc.2
      · rfl
    rw [key, parseDigits_dump _ _ _ h]
    congr 3
    omega

/-- The first character of a number. -/
theorem decInt_head (n : Int) : ∃ c cs, decInt n = c :: cs ∧ c ∈ "-0123456789".toList := by
  unfold decInt
  change ∃ c cs, (if n < 0 then '-' :: (digits' 10 n.natAbs).map hexChar else (digits' 10 n.natAbs).map hexChar) = c :: cs ∧ _
  split
  · exact ⟨_, _, rfl, by decide⟩
  · obtain ⟨d, ds, h1⟩ : ∃ d ds, digits' 10 n.natAbs = d :: ds := List.exists_cons_of_ne_nil (digits'_ne_nil _)
    have hd : d < 10 := digits'_mem_lt (by norm_num) n.natAbs d (by rw [h1]; exact List.mem_cons_self)
    refine ⟨hexChar d, ds.map hexChar, by rw [h1]; rfl, ?_⟩
    revert hd; clear h1; revert d; decide

/-! ### Values -/

mutual

/-- The keys of every object are different, and there are no numbers with a fraction or an exponent. -/
def Json.Plain : Json → Prop
  | .null => True
  | .bool _ => True
  | .int _ => True
  | .float _ => False
  | .str _ => True
  | .arr xs => Json.PlainItems xs
  | .obj kvs => (kvs.map Prod.fst).Nodup ∧ Json.PlainMembers kvs

/-- All items are plain. -/
def Json.PlainItems : List Json → Prop
  | [] => True
  | x :: xs => x.Plain ∧ Json.PlainItems xs

/-- All members are plain. -/
def Json.PlainMembers : List (String × Json) → Prop
  | [] => True
  | (_, v) :: ms => v.Plain ∧ Json.PlainMembers ms

end

theorem plainItems_iff (xs : List Json) : Json.PlainItems xs ↔ ∀ x ∈ xs, x.Plain := by
  induction xs with
  | nil => simp [Json.PlainItems]
  | cons x xs ih => simp [Json.PlainItems, ih]

theorem plainMembers_iff (ms : List (String × Json)) : Json.PlainMembers ms ↔ ∀ m ∈ ms, m.2.Plain := by
  induction ms with
  | nil => simp [Json.PlainMembers]
  | cons m ms ih => obtain ⟨k, v⟩ := m; simp [Json.PlainMembers, ih]

/-- The first character of a value is not white space and closes nothing. -/
theorem dumps_head {j : Json} (h : j.Plain) : ∃ c cs, j.dumps = c :: cs ∧ isJsonSpace c = false ∧ c ≠ ']' ∧ c ≠ '}' := by
  cases j with
  | null => exact ⟨_, _, rfl, by decide⟩
  | bool b => cases b <;> exact ⟨_, _, rfl, by decide⟩
  | int n =>
    obtain ⟨c, cs, h1, h2⟩ := decInt_head n
    refine ⟨c, cs, by rw [Json.dumps, h1], ?_⟩
    revert h2; clear h1; revert c; decide
  | float t => exact absurd h (by simp [Json.Plain])
  | str s => exact ⟨'"', _, by rw [Json.dumps]; rfl, by decide⟩
  | arr xs => exact ⟨'[', _, by rw [Json.dumps], by decide⟩
  | obj kvs => exact ⟨'{', _, by rw [Json.dumps], by decide⟩

theorem skipWs_dumps {j : Json} (h : j.Plain) (t : List Char) : skipWs (j.dumps ++ t) = j.dumps ++ t := by
  obtain ⟨c, cs, h1, h2, -⟩ := dumps_head h
  rw [h1, List.cons_append, skipWs, List.dropWhile_cons_of_neg (by simp [h2])]

theorem numEnd_cons {c : Char} (t : List Char) (h : isDecDigit c = false ∧ c ≠ '.' ∧ c ≠ 'e' ∧ c ≠ 'E') : NumEnd (c :: t) := by
  intro c' hc'
  simp only [List.head?_cons, Option.some.injEq] at hc'
  subst hc'
  exact h

theorem dumps_pos {j : Json} (h : j.Plain) : 1 ≤ j.dumps.length := by
  obtain ⟨c, cs, h1, -⟩ := dumps_head h
  rw [h1]
  simp

theorem skipWs_space (t : List Char) : skipWs (' ' :: t) = skipWs t := by
  have : isJsonSpace ' ' = true := by decide
  simp [skipWs, this]

theorem skipWs_cons {c : Char} (hc : isJsonSpace c = false) (t : List Char) : skipWs (c :: t) = c :: t := by
  simp [skipWs, hc]

/-- What is written is read back, whatever follows. -/
theorem parseValue_dumps (j : Json) (hj : j.Plain) (t : List Char) (ht : NumEnd t) (f : Nat) (hf : j.dumps.length ≤ f) :
    parseValue f (j.dumps ++ t) = some (j, t) := by
  obtain ⟨f, rfl⟩ : ∃ g, f = g + 1 := ⟨f - 1, by have := dumps_pos hj; omega⟩
  cases j with
  | null => simp [Json.dumps, parseValue]
  | bool b => cases b <;> simp [Json.dumps, parseValue]
  | float _ => exact absurd hj (by simp [Json.Plain])
  | int n =>
    rw [Json.dumps]
    have key : parseValue (f + 1) (decInt n ++ t) = parseNumber (decInt n ++ t) := by
      obtain ⟨c, cs, h1, h2⟩ := decInt_head n
      rw [h1, List.cons_append]
      unfold parseValue
      have : c = '-' ∨ c = '0' ∨ c = '1' ∨ c = '2' ∨ c = '3' ∨ c = '4' ∨ c = '5' ∨ c = '6' ∨ c = '7' ∨ c = '8' ∨ c = '9' := by
        simpa using h2
      rcases this with rfl | rfl | rfl | rfl | rfl | rfl | rfl | rfl | rfl | rfl | rfl <;> rfl
    rw [key, parseNumber_dump n ht]
  | str s =>
    simp only [Json.dumps, dumpString, List.cons_append, List.append_assoc, List.nil_append, parseValue, parseChars_dump',
      String.ofList_toList]
  | arr xs =>
    rw [Json.Plain, plainItems_iff] at hj
    have items : ∀ (ys acc : List Json) (g : Nat), ys ≠ [] → (∀ y ∈ ys, y ∈ xs) → (Json.dumpsItems ys).length ≤ g →
        parseItems g acc (Json.dumpsItems ys ++ t) = some (.arr (acc ++ ys), t) := by
      intro ys
      induction ys with
      | nil => intro acc g h; exact absurd rfl h
      | cons y ys ih =>
        intro acc g _ hsub hg
        have hy := hj y (hsub y List.mem_cons_self)
        have hlt : sizeOf y < sizeOf (Json.arr xs) := by
          have := List.sizeOf_lt_of_mem (hsub y List.mem_cons_self)
          simp only [Json.arr.sizeOf_spec]
          omega
        cases ys with
        | nil =>
          rw [Json.dumpsItems] at hg ⊢
          simp only [List.length_append, List.length_singleton] at hg
          obtain ⟨g, rfl⟩ : ∃ k, g = k + 1 := ⟨g - 1, by omega⟩
          rw [List.append_assoc, List.singleton_append]
          unfold parseItems
          rw [parseValue_dumps y hy _ (numEnd_cons (c := ']') _ (by decide)) g (by omega)]
          simp [skipWs_cons (show isJsonSpace ']' = false by decide)]
        | cons z zs =>
          have hz := hj z (hsub z (by simp))
          rw [Json.dumpsItems] at hg ⊢
          simp only [List.length_append, List.length_cons] at hg
          obtain ⟨g, rfl⟩ : ∃ k, g = k + 1 := ⟨g - 1, by omega⟩
          rw [List.append_assoc]
          unfold parseItems
          rw [List.cons_append, parseValue_dumps y hy _ (numEnd_cons (c := ',') _ (by decide)) g (by omega)]
          simp only [skipWs_cons (show isJsonSpace ',' = false by decide)]
          have hskip : skipWs (' ' :: Json.dumpsItems (z :: zs) ++ t) = Json.dumpsItems (z :: zs) ++ t := by
            rw [List.cons_append, skipWs_space]
            cases zs with
            | nil => rw [Json.dumpsItems, List.append_assoc, skipWs_dumps hz]
            | cons w ws => rw [Json.dumpsItems, List.append_assoc, skipWs_dumps hz]
          rw [hskip, ih (acc ++ [y]) g (by simp) (fun w hw => hsub w (List.mem_cons_of_mem _ hw)) (by omega), List.append_assoc]
          rfl
    cases hxs : xs with
    | nil =>
      subst hxs
      simp [Json.dumps, Json.dumpsItems, parseValue, skipWs_cons (show isJsonSpace ']' = false by decide)]
    | cons x rest =>
      rw [Json.dumps, List.cons_append]
      have hx := hj x (by rw [hxs]; exact List.mem_cons_self)
      obtain ⟨c, cs, h1, h2, h3, -⟩ := dumps_head hx
      have hhead : ∃ cs', Json.dumpsItems xs = c :: cs' := by
        rw [hxs]
        cases rest with
        | nil => exact ⟨cs ++ [']'], by rw [Json.dumpsItems, h1]; rfl⟩
        | cons y ys => exact ⟨_, by rw [Json.dumpsItems, h1]; rfl⟩
      obtain ⟨cs', h4⟩ := hhead
      have h5 := items xs [] f (by rw [hxs]; simp) (fun _ h => h) (by
        have : (Json.arr xs).dumps.length ≤ f + 1 := hf
        rw [Json.dumps, List.length_cons] at this
        omega)
      rw [← hxs]
      rw [h4, List.cons_append]
      simp only [parseValue, skipWs_cons h2]
      rw [h4, List.cons_append] at h5
      split
      · next h6 => exact absurd (List.cons.inj h6).1 h3
      · rw [h5]; rfl
  | obj kvs =>
    rw [Json.Plain, plainMembers_iff] at hj
    obtain ⟨hnd, hj⟩ := hj
    have members : ∀ (ms acc : List (String × Json)) (g : Nat), ms ≠ [] → (∀ m ∈ ms, m ∈ kvs) → (Json.dumpsMembers ms).length ≤ g →
        ((acc ++ ms).map Prod.fst).Nodup →
        parseMembers g acc (Json.dumpsMembers ms ++ t) = some (.obj (acc ++ ms), t) := by
      intro ms
      induction ms with
      | nil => intro acc g h; exact absurd rfl h
      | cons m ms ih =>
        intro acc g _ hsub hg hn
        obtain ⟨k, v⟩ := m
        have hv := hj _ (hsub _ List.mem_cons_self)
        have hlt : sizeOf v < sizeOf (Json.obj kvs) := by
          have := List.sizeOf_lt_of_mem (hsub (k, v) List.mem_cons_self)
          simp only [Prod.mk.sizeOf_spec] at this
          simp only [Json.obj.sizeOf_spec]
          omega
        have hfresh : dset acc k v = acc ++ [(k, v)] := by
          refine dset_fresh _ ?_
          rw [List.map_append, List.nodup_append] at hn
          exact fun h => hn.2.2 _ h k (by simp) rfl
        cases ms with
        | nil =>
          rw [Json.dumpsMembers] at hg ⊢
          simp only [List.length_append, List.length_cons, List.length_nil] at hg
          obtain ⟨g, rfl⟩ : ∃ k, g = k + 1 := ⟨g - 1, by omega⟩
          unfold parseMembers
          simp only [dumpString, List.cons_append, List.append_assoc, List.nil_append, parseChars_dump',
            skipWs_cons (show isJsonSpace ':' = false by decide), skipWs_space, skipWs_dumps hv, String.ofList_toList]
          rw [parseValue_dumps v hv _ (numEnd_cons (c := '}') _ (by decide)) g (by omega)]
          simp only [skipWs_cons (show isJsonSpace '}' = false by decide), hfresh]
        | cons m' ms' =>
          have hg' : (dumpString k.toList).length + (v.dumps.length + ((Json.dumpsMembers (m' :: ms')).length + 2) + 2) ≤ g := by
            rw [Json.dumpsMembers] at hg
            simpa only [List.length_append, List.length_cons, Nat.add_assoc] using hg
          obtain ⟨g, rfl⟩ : ∃ k, g = k + 1 := ⟨g - 1, by omega⟩
          have hskip : skipWs (Json.dumpsMembers (m' :: ms') ++ t) = Json.dumpsMembers (m' :: ms') ++ t := by
            obtain ⟨k', v'⟩ := m'
            cases ms' with
            | nil =>
              rw [Json.dumpsMembers, dumpString, List.cons_append, List.cons_append, skipWs_cons (by decide)]
            | cons w ws => rw [Json.dumpsMembers, dumpString, List.cons_append, List.cons_append, skipWs_cons (by decide)]
          rw [Json.dumpsMembers]
          unfold parseMembers
          simp only [dumpString, List.cons_append, List.append_assoc, List.nil_append, parseChars_dump',
            skipWs_cons (show isJsonSpace ':' = false by decide), skipWs_space, skipWs_dumps hv, String.ofList_toList]
          rw [parseValue_dumps v hv _ (numEnd_cons (c := ',') _ (by decide)) g (by omega)]
          simp only [skipWs_cons (show isJsonSpace ',' = false by decide), skipWs_space, hskip, hfresh]
          rw [ih (acc ++ [(k, v)]) g (by simp) (fun w hw => hsub w (List.mem_cons_of_mem _ hw)) (by omega)
            (by rw [List.append_assoc]; exact hn), List.append_assoc]
          rfl
    cases hkv : kvs with
    | nil =>
      subst hkv
      simp [Json.dumps, Json.dumpsMembers, parseValue, skipWs_cons (show isJsonSpace '}' = false by decide)]
    | cons m rest =>
      rw [Json.dumps, List.cons_append, ← hkv]
      have hhead : ∃ cs', Json.dumpsMembers kvs = '"' :: cs' := by
        rw [hkv]
        obtain ⟨k, v⟩ := m
        cases rest with
        | nil => exact ⟨_, by rw [Json.dumpsMembers, dumpString]; rfl⟩
        | cons y ys => exact ⟨_, by rw [Json.dumpsMembers, dumpString]; rfl⟩
      obtain ⟨cs', h4⟩ := hhead
      have h5 := members kvs [] f (by rw [hkv]; simp) (fun _ h => h) (by
        have : (Json.obj kvs).dumps.length ≤ f + 1 := hf
        rw [Json.dumps, List.length_cons] at this
        omega) (by simpa using hnd)
      rw [h4, List.cons_append]
      simp only [parseValue, skipWs_cons (show isJsonSpace '"' = false by decide)]
      rw [h4, List.cons_append] at h5
      split
      · next h6 => exact absurd (List.cons.inj h6).1 (by decide)
      · rw [h5]; rfl
termination_by sizeOf j

/-- `json.loads` reads what `json.dumps` wrote, with white space around it. -/
theorem jsonLoads_dumps (j : Json) (hj : j.Plain) (w w' : List Char) (hw : ∀ c ∈ w, isJsonSpace c = true)
    (hw' : ∀ c ∈ w', isJsonSpace c = true) : jsonLoads (w ++ (j.dumps ++ w')) = .ok j := by
  have h1 : skipWs (w ++ (j.dumps ++ w')) = j.dumps ++ w' := by
    rw [skipWs, List.dropWhile_append_of_pos hw]
    exact skipWs_dumps hj w'
  have h2 : skipWs w' = [] := by
    have := List.dropWhile_append_of_pos (p := isJsonSpace) (l₂ := []) hw'
    simpa [skipWs] using this
  have hend : NumEnd w' := by
    intro c hc
    have := hw' c (List.mem_of_mem_head? hc)
    unfold isJsonSpace at this
    simp only [Bool.or_eq_true, beq_iff_eq] at this
    rcases this with ((rfl | rfl) | rfl) | rfl <;> decide
  unfold jsonLoads
  rw [h1, parseValue_dumps j hj w' hend _ (by simp only [List.length_append]; omega)]
  simp [h2]

theorem jsonLoads_dumps' (j : Json) (hj : j.Plain) : jsonLoads j.dumps = .ok j := by
  have := jsonLoads_dumps j hj [] [] (by simp) (by simp)
  simpa using this

end EG
