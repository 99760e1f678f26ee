import Verif.Lemmas.Serialize
import Verif.Lemmas.SerializeRead
import Verif.Props.Bytes

/-!
# The texts that are written
-/

namespace EG

/-- A printable ASCII character. -/
def Printable (c : Char) : Prop := 32 ≤ c.toNat ∧ c.toNat ≤ 126

instance (c : Char) : Decidable (Printable c) := by unfold Printable; infer_instance

theorem hexLower_printable (n : Nat) : Printable (hexLower n) := by
  unfold hexLower
  split <;> decide

theorem escapeUnit_printable (n : Nat) : ∀ c ∈ escapeUnit n, Printable c := by
  intro c hc
  simp only [escapeUnit, List.mem_cons, List.not_mem_nil, or_false] at hc
  rcases hc with rfl | rfl | rfl | rfl | rfl | rfl
  · decide
  · decide
  all_goals exact hexLower_printable _

theorem escapeChar_printable (c : Char) : ∀ x ∈ escapeChar c, Printable x := by
  unfold escapeChar
  split; · decide
  split; · decide
  split; · decide
  split; · decide
  split; · decide
  split; · decide
  split; · decide
  split
  · intro x hx; rw [List.mem_singleton] at hx; subst hx; assumption
  split
  · exact escapeUnit_printable _
  · intro x hx
    rcases List.mem_append.1 hx with h | h
    · exact escapeUnit_printable _ x h
    · exact escapeUnit_printable _ x h

theorem dumpString_printable (s : List Char) : ∀ c ∈ dumpString s, Printable c := by
  intro c hc
  simp only [dumpString, List.mem_cons, List.mem_append, List.mem_flatMap, List.not_mem_nil, or_false] at hc
  rcases hc with rfl | ⟨x, -, hx⟩ | rfl
  · decide
  · exact escapeChar_printable x c hx
  · decide

theorem decInt_printable (n : Int) : ∀ c ∈ decInt n, Printable c := by
  intro c hc
  rcases decInt_chars n c hc with rfl | ⟨d, hd, rfl⟩
  · decide
  · clear hc
    revert d
    decide

mutual

theorem dumps_printable : (j : Json) → j.Plain → ∀ c ∈ j.dumps, Printable c
  | .null, _ => by rw [Json.dumps]; decide
  | .bool true, _ => by rw [Json.dumps]; decide
  | .bool false, _ => by rw [Json.dumps]; decide
  | .int n, _ => by rw [Json.dumps]; exact decInt_printable n
  | .float _, h => by simp [Json.Plain] at h
  | .str s, _ => by rw [Json.dumps]; exact dumpString_printable _
  | .arr xs, h => by
    rw [Json.Plain] at h
    rw [Json.dumps]
    intro c hc
    rcases List.mem_cons.1 hc with rfl | hc
    · decide
    · exact dumpsItems_printable xs h c hc
  | .obj kvs, h => by
    rw [Json.Plain] at h
    rw [Json.dumps]
    intro c hc
    rcases List.mem_cons.1 hc with rfl | hc
    · decide
    · exact dumpsMembers_printable kvs h.2 c hc

theorem dumpsItems_printable : (xs : List Json) → Json.PlainItems xs → ∀ c ∈ Json.dumpsItems xs, Printable c
  | [], _ => by rw [Json.dumpsItems]; decide
  | [x], h => by
    rw [Json.PlainItems] at h
    rw [Json.dumpsItems]
    intro c hc
    rcases List.mem_append.1 hc with hc | hc
    · exact dumps_printable x h.1 c hc
    · rw [List.mem_singleton] at hc; subst hc; decide
  | x :: y :: xs, h => by
    rw [Json.PlainItems] at h
    rw [Json.dumpsItems]
    intro c hc
    simp only [List.mem_append, List.mem_cons] at hc
    rcases hc with hc | rfl | rfl | hc
    · exact dumps_printable x h.1 c hc
    · decide
    · decide
    · exact dumpsItems_printable (y :: xs) h.2 c hc

theorem dumpsMembers_printable : (ms : List (String × Json)) → Json.PlainMembers ms → ∀ c ∈ Json.dumpsMembers ms, Printable c
  | [], _ => by rw [Json.dumpsMembers]; decide
  | [(k, v)], h => by
    rw [Json.PlainMembers] at h
    rw [Json.dumpsMembers]
    intro c hc
    simp only [List.mem_append, List.mem_cons, List.not_mem_nil, or_false] at hc
    rcases hc with hc | rfl | rfl | hc | rfl
    · exact dumpString_printable _ c hc
    · decide
    · decide
    · exact dumps_printable v h.1 c hc
    · decide
  | (k, v) :: m :: ms, h => by
    rw [Json.PlainMembers] at h
    rw [Json.dumpsMembers]
    intro c hc
    simp only [List.mem_append, List.mem_cons] at hc
    rcases hc with hc | rfl | rfl | hc | rfl | rfl | hc
    · exact dumpString_printable _ c hc
    · decide
    · decide
    · exact dumps_printable v h.1 c hc
    · decide
    · decide
    · exact dumpsMembers_printable (m :: ms) h.2 c hc

end

theorem dumpsMembers_last (ms : List (String × Json)) : (Json.dumpsMembers ms).getLast? = some '}' := by
  induction ms with
  | nil => rw [Json.dumpsMembers]; rfl
  | cons m ms ih =>
    obtain ⟨k, v⟩ := m
    cases ms with
    | nil => rw [Json.dumpsMembers]; simp [List.getLast?_append, List.getLast?_cons]
    | cons m' ms =>
      rw [Json.dumpsMembers]
      simp only [List.getLast?_append, List.getLast?_cons, ih]
      simp

/-- The text of an object ends with a brace. -/
theorem obj_last (kvs : List (String × Json)) : (Json.obj kvs).dumps.getLast? = some '}' := by
  rw [Json.dumps, List.getLast?_cons, dumpsMembers_last]
  rfl

/-! ### Bytes -/

theorem asciiText_bytes {t : List Char} (h : ∀ c ∈ t, Printable c) : asciiText (asciiBytes t) = .ok t := by
  have hb : ∀ c ∈ t, (UInt8.ofNat c.toNat).toNat = c.toNat := by
    intro c hc
    have := h c hc
    unfold Printable at this
    rw [UInt8.toNat_ofNat']
    omega
  unfold asciiText asciiBytes
  rw [if_pos, List.map_map]
  · congr 1
    conv_rhs => rw [← List.map_id t]
    refine List.map_congr_left (fun c hc => ?_)
    simp only [Function.comp, hb c hc, id]
    exact Char.ofNat_toNat c
  · rw [List.all_map, List.all_eq_true]
    intro c hc
    have := h c hc
    unfold Printable at this
    simp only [Function.comp, hb c hc, Bool.and_eq_true, decide_eq_true_eq]
    omega

/-- What is written to bytes and padded is read back after the padding is removed. -/
theorem padded_trip {α : Type} {enc : α → Json} {dec : Json → R α} {a : α} (h : Trip enc dec a) (hfit : (toRaw enc a).length ≤ 510) :
    ∃ bs, paddedEncode enc a = .ok bs ∧ bs.length = 512 ∧ paddedDecode dec bs = .ok a := by
  have hlen : (asciiBytes (toRaw enc a)).length = (toRaw enc a).length := by unfold asciiBytes; rw [List.length_map]
  obtain ⟨bs, h1, h2, h3⟩ := C20_roundtrip (asciiBytes (toRaw enc a)) 512 false (by omega) (by omega)
  refine ⟨bs, h1, h2, ?_⟩
  have h3' : removePadding bs 512 = asciiBytes (toRaw enc a) := h3
  rw [paddedDecode, h3', asciiText_bytes (t := toRaw enc a) (dumps_printable _ h.1)]
  show fromRaw dec (toRaw enc a) = _
  rw [fromRaw, toRaw, jsonLoads_dumps' _ h.1]
  exact h.2.2

theorem coordinateJson_eq (n : Nat) : coordinateJson n = asciiBytes (toRaw coordinateDataJson n) := by
  have hp : ∀ c ∈ toHex n, escapeChar c = [c] := by
    intro c hc
    obtain ⟨d, hd, rfl⟩ := toHex_chars n c hc
    clear hc
    revert d
    decide
  have hf : ∀ l : List Char, (∀ c ∈ l, escapeChar c = [c]) → l.flatMap escapeChar = l := by
    intro l
    induction l with
    | nil => intro _; rfl
    | cons c l ih => intro h; rw [List.flatMap_cons, h c List.mem_cons_self, ih (fun x hx => h x (List.mem_cons_of_mem _ hx))]; rfl
  have hk : dumpString "coordinate".toList = ['"', 'c', 'o', 'o', 'r', 'd', 'i', 'n', 'a', 't', 'e', '"'] := by decide +kernel
  have e1 : "{\"coordinate\": \"".toList = ['{', '"', 'c', 'o', 'o', 'r', 'd', 'i', 'n', 'a', 't', 'e', '"', ':', ' ', '"'] := by
    decide +kernel
  have e2 : "\"}".toList = ['"', '}'] := by decide +kernel
  have hs : (String.ofList (toHex n)).toList = toHex n := String.toList_ofList
  rw [coordinateJson, toRaw, coordinateDataJson, Json.dumps, Json.dumpsMembers, elemJson, Json.dumps, hk, hs, dumpString, hf _ hp, e1, e2]
  simp only [List.cons_append, List.nil_append, List.append_assoc]

/-- The coordinate of a backup is read back. -/
theorem loadsCoordinate_reads : ReadsCoordinate loadsCoordinate := by
  intro n
  have hplain : (coordinateDataJson n).Plain := by simp [coordinateDataJson, Json.Plain, Json.PlainMembers, elem_plain]
  rw [coordinateJson_eq, loadsCoordinate, asciiText_bytes (t := toRaw coordinateDataJson n) (dumps_printable _ hplain)]
  simp only [bind, Except.bind, toRaw, jsonLoads_dumps' _ hplain]
  simp [coordinateDataJson, asObj, need_cons, bigOf_elem, pure, Except.pure]

/-- Reading a coordinate in two steps is `padded_decode`. -/
theorem coordinateFromBytes_eq (P : Params) (data : Bytes) :
    coordinateFromBytes P loadsCoordinate data = paddedDecode (coordinateDataOf P) data := by
  unfold coordinateFromBytes loadsCoordinate paddedDecode fromRaw coordinateDataOf
  simp only [bind, Except.bind]
  cases asciiText (removePadding data 512) with
  | error e => rfl
  | ok t =>
    simp only
    cases jsonLoads t with
    | error e => rfl
    | ok j =>
      simp only
      cases asObj j with
      | error e => rfl
      | ok o =>
        simp only [need]
        cases dget o "coordinate" with
        | none => rfl
        | some v =>
          simp only [elemQOf, bind, Except.bind]
          cases bigOf v with
          | error e => rfl
          | ok n =>
            simp only
            by_cases hn : 0 ≤ n
            · rw [if_pos hn]
              simp only [pure, Except.pure, hexToInt_toHex, Int.toNat_of_nonneg hn]
            · rw [if_neg hn, mkQ, if_neg (by omega)]

end EG
