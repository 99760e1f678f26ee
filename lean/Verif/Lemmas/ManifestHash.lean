import Verif.Spec.Manifest
import Verif.Lemmas.Hash

/-!
# Binding of the hashes of manifest objects
-/

namespace EG

variable {E : Env} {T : List Char → Prop}

theorem hash_toks (hE : Distinct E T) {l l' : List HArg} (hl : ∀ a ∈ l, noBar a) (hl' : ∀ a ∈ l', noBar a)
    (ht : ∀ t ∈ hashTexts E l, T t) (ht' : ∀ t ∈ hashTexts E l', T t)
    (h : hashElems E l = hashElems E l') : l.map (tok E) = l'.map (tok E) :=
  encs_inj E l l' hl hl'
    (List.cons.inj (hE (hashText E l) (hashText E l') (ht _ (by simp [hashTexts])) (ht' _ (by simp [hashTexts])) h)).2

theorem argTexts_mem {a : HArg} {l : List HArg} (h : a ∈ l) : ∀ t ∈ argTexts E a, t ∈ hashTexts E l := by
  intro t ht
  unfold hashTexts
  refine List.mem_cons_of_mem _ ?_
  induction l with
  | nil => cases h
  | cons x xs ih =>
    rw [argsTexts, List.mem_append]
    rcases List.mem_cons.1 h with rfl | h
    · exact .inl ht
    · exact .inr (ih h)

theorem noBar_str {s : String} (h : Plain s) : noBar (.str s) := by simpa [noBar] using h.1

theorem noBar_ofOptStr {o : Option String} (h : ∀ s ∈ o, Plain s) : noBar (.ofOptStr o) := by
  cases o with
  | none => simp [HArg.ofOptStr, noBar]
  | some s => simpa [HArg.ofOptStr, noBar] using (h s rfl).1

theorem noBar_ofOptInt {o : Option Int} : noBar (.ofOptInt o) := by
  cases o <;> simp [HArg.ofOptInt, noBar]

theorem noBar_ofOptObj {o : Option Nat} : noBar (.ofOptObj o) := by
  cases o <;> simp [HArg.ofOptObj, noBar]

theorem noBar_ofOptList {o : Option (List HArg)} : noBar (.ofOptList o) := by
  cases o <;> simp [HArg.ofOptList, noBar]

theorem noBar_list {l : List HArg} : noBar (.list l) := by simp [noBar]

theorem noBar_obj {n : Nat} : noBar (.obj n) := by simp [noBar]

theorem noBar_int {n : Int} : noBar (.int n) := by simp [noBar]

theorem tok_str_inj {s t : String} (h : tok E (.str s) = tok E (.str t)) : s = t := by
  rw [tok, tok] at h; exact String.toList_inj.1 h

theorem tok_int_inj {s t : Int} (h : tok E (.int s) = tok E (.int t)) : s = t := by
  rw [tok, tok] at h; exact decInt_inj h

theorem tok_obj_inj {s t : Nat} (h : tok E (.obj s) = tok E (.obj t)) : s = t := by
  rw [tok, tok] at h; exact toHex_inj h

theorem tok_ofOptStr_inj {s t : Option String} (hs : ∀ x ∈ s, Plain x) (ht : ∀ x ∈ t, Plain x)
    (h : tok E (.ofOptStr s) = tok E (.ofOptStr t)) : s = t := by
  cases s with
  | none =>
    cases t with
    | none => rfl
    | some b =>
      simp only [HArg.ofOptStr] at h
      rw [tok, tok] at h
      exact absurd (String.toList_inj.1 h).symm (ht b rfl).2
  | some a =>
    cases t with
    | none =>
      simp only [HArg.ofOptStr] at h
      rw [tok, tok] at h
      exact absurd (String.toList_inj.1 h) (hs a rfl).2
    | some b => rw [tok_str_inj h]

theorem null_ne_decInt (i : Int) : "null".toList ≠ decInt i := by
  intro h
  have : 'n' ∈ decInt i := by rw [← h]; decide
  rcases decInt_chars i _ this with hc | ⟨d, hd, he⟩
  · exact absurd hc (by decide)
  · exact absurd he.symm ((by decide : ∀ d < 16, hexChar d ≠ 'n') d hd)

theorem tok_ofOptInt_inj {s t : Option Int} (h : tok E (.ofOptInt s) = tok E (.ofOptInt t)) : s = t := by
  cases s with
  | none =>
    cases t with
    | none => rfl
    | some b =>
      simp only [HArg.ofOptInt] at h
      rw [tok, tok] at h
      exact absurd h (null_ne_decInt b)
  | some a =>
    cases t with
    | none =>
      simp only [HArg.ofOptInt] at h
      rw [tok, tok] at h
      exact absurd h.symm (null_ne_decInt a)
    | some b => rw [tok_int_inj h]

theorem tok_ofOptObj_inj {s t : Option Nat} (h : tok E (.ofOptObj s) = tok E (.ofOptObj t)) : s = t := by
  cases s with
  | none =>
    cases t with
    | none => rfl
    | some b =>
      simp only [HArg.ofOptObj] at h
      rw [tok, tok] at h
      exact absurd h (null_ne_toHex b)
  | some a =>
    cases t with
    | none =>
      simp only [HArg.ofOptObj] at h
      rw [tok, tok] at h
      exact absurd h.symm (null_ne_toHex a)
    | some b => rw [tok_obj_inj h]

theorem tok_list_inj (hE : Distinct E T) {l l' : List HArg} (hl : ∀ a ∈ l, noBar a) (hl' : ∀ a ∈ l', noBar a)
    (ht : ∀ t ∈ argTexts E (.list l), T t) (ht' : ∀ t ∈ argTexts E (.list l'), T t)
    (h : tok E (.list l) = tok E (.list l')) : l.map (tok E) = l'.map (tok E) := by
  cases l with
  | nil =>
    cases l' with
    | nil => rfl
    | cons y ys => rw [tok, tok] at h; exact absurd h (null_ne_toHex _)
  | cons x xs =>
    cases l' with
    | nil => rw [tok, tok] at h; exact absurd h.symm (null_ne_toHex _)
    | cons y ys =>
      rw [tok, tok] at h
      rw [argTexts] at ht ht'
      exact hash_toks hE hl hl' ht ht' (toHex_inj h)

theorem map_inj_on {α β γ : Type} {f : α → β} {g : α → γ} {clean : α → Prop}
    (hf : ∀ a b, clean a → clean b → f a = f b → g a = g b) {l l' : List α} (hl : ∀ a ∈ l, clean a)
    (hl' : ∀ a ∈ l', clean a) (h : l.map f = l'.map f) : l.map g = l'.map g := by
  induction l generalizing l' with
  | nil =>
    cases l' with
    | nil => rfl
    | cons y ys => simp at h
  | cons x xs ih =>
    cases l' with
    | nil => simp at h
    | cons y ys =>
      simp only [List.map_cons, List.cons.injEq] at h ⊢
      exact ⟨hf x y (hl x (by simp)) (hl' y (by simp)) h.1,
        ih (fun a ha => hl a (by simp [ha])) (fun a ha => hl' a (by simp [ha])) h.2⟩

/-- A list of hashable objects is bound by the token of the list. -/
theorem tok_objs (hE : Distinct E T) {α γ : Type} {f : α → Nat} {g : α → γ} {clean : α → Prop}
    (hf : ∀ a b, clean a → clean b → f a = f b → g a = g b) {l l' : List α} (hl : ∀ a ∈ l, clean a)
    (hl' : ∀ a ∈ l', clean a) (ht : ∀ t ∈ argTexts E (.list (l.map (fun x => .obj (f x)))), T t)
    (ht' : ∀ t ∈ argTexts E (.list (l'.map (fun x => .obj (f x)))), T t)
    (h : tok E (.list (l.map (fun x => .obj (f x)))) = tok E (.list (l'.map (fun x => .obj (f x))))) :
    l.map g = l'.map g := by
  have h1 := tok_list_inj hE (by simp [noBar]) (by simp [noBar]) ht ht' h
  rw [List.map_map, List.map_map] at h1
  refine map_inj_on ?_ hl hl' h1
  intro a b ha hb hab
  exact hf a b ha hb (tok_obj_inj hab)

/-- An optional list of hashable objects is bound up to empty lists. -/
theorem tok_optObjs (hE : Distinct E T) {α : Type} {f : α → Nat} {clean : α → Prop}
    (hf : ∀ a b, clean a → clean b → f a = f b → a = b) {o o' : Option (List α)}
    (hl : ∀ l ∈ o, ∀ a ∈ l, clean a) (hl' : ∀ l ∈ o', ∀ a ∈ l, clean a)
    (ht : ∀ t ∈ argTexts E (.ofOptList (o.map (·.map (fun x => .obj (f x))))), T t)
    (ht' : ∀ t ∈ argTexts E (.ofOptList (o'.map (·.map (fun x => .obj (f x))))), T t)
    (h : tok E (.ofOptList (o.map (·.map (fun x => .obj (f x)))))
      = tok E (.ofOptList (o'.map (·.map (fun x => .obj (f x)))))) : normList o = normList o' := by
  have aux : ∀ l : List α, (∀ a ∈ l, clean a) →
      tok E HArg.none = tok E (.list (l.map (fun x => .obj (f x)))) → l = [] := by
    intro l _ h
    cases l with
    | nil => rfl
    | cons x xs => rw [List.map_cons, tok, tok] at h; exact absurd h (null_ne_toHex _)
  cases o with
  | none =>
    cases o' with
    | none => rfl
    | some l' => rw [aux l' (hl' l' rfl) h]; rfl
  | some l =>
    cases o' with
    | none => rw [aux l (hl l rfl) h.symm]; rfl
    | some l' =>
      have := tok_objs hE (g := id) hf (hl l rfl) (hl' l' rfl) ht ht' h
      rw [List.map_id, List.map_id] at this
      rw [this]

/-- An optional list of texts is bound up to empty lists. -/
theorem tok_optStrs (hE : Distinct E T) {o o' : Option (List String)}
    (hl : ∀ l ∈ o, ∀ a ∈ l, Plain a) (hl' : ∀ l ∈ o', ∀ a ∈ l, Plain a)
    (ht : ∀ t ∈ argTexts E (.ofOptList (o.map (·.map .str))), T t)
    (ht' : ∀ t ∈ argTexts E (.ofOptList (o'.map (·.map .str))), T t)
    (h : tok E (.ofOptList (o.map (·.map .str))) = tok E (.ofOptList (o'.map (·.map .str)))) :
    normList o = normList o' := by
  have aux : ∀ l : List String, tok E HArg.none = tok E (.list (l.map .str)) → l = [] := by
    intro l h
    cases l with
    | nil => rfl
    | cons x xs => rw [List.map_cons, tok, tok] at h; exact absurd h (null_ne_toHex _)
  cases o with
  | none =>
    cases o' with
    | none => rfl
    | some l' => rw [aux l' h]; rfl
  | some l =>
    cases o' with
    | none => rw [aux l h.symm]; rfl
    | some l' =>
      have h1 := tok_list_inj hE
        (by intro a ha; obtain ⟨s, hs, rfl⟩ := List.mem_map.1 ha; exact noBar_str (hl l rfl s hs))
        (by intro a ha; obtain ⟨s, hs, rfl⟩ := List.mem_map.1 ha; exact noBar_str (hl' l' rfl s hs)) ht ht' h
      rw [List.map_map, List.map_map] at h1
      have := map_inj_on (g := id) (clean := fun _ => True) (fun a b _ _ hab => tok_str_inj hab)
        (fun _ _ => trivial) (fun _ _ => trivial) h1
      rw [List.map_id, List.map_id] at this
      rw [this]

/-- An optional hashable object is bound. -/
theorem tok_optObj {α γ : Type} {f : α → Nat} {g : α → γ} {clean : α → Prop}
    (hf : ∀ a b, clean a → clean b → f a = f b → g a = g b) {o o' : Option α}
    (hl : ∀ a ∈ o, clean a) (hl' : ∀ a ∈ o', clean a)
    (h : tok E (.ofOptObj (o.map f)) = tok E (.ofOptObj (o'.map f))) : o.map g = o'.map g := by
  have h1 := tok_ofOptObj_inj h
  cases o with
  | none =>
    cases o' with
    | none => rfl
    | some b => simp at h1
  | some a =>
    cases o' with
    | none => simp at h1
    | some b =>
      simp only [Option.map_some, Option.some.injEq] at h1 ⊢
      exact hf a b (hl a rfl) (hl' b rfl) h1

theorem opt_toList {α : Type} {o : Option α} {a : α} (h : a ∈ o) : a ∈ o.toList := by
  cases h; simp

theorem opt_getD {α : Type} {o : Option (List α)} {l : List α} (h : l ∈ o) {a : α} (ha : a ∈ l) : a ∈ o.getD [] := by
  cases h; simpa using ha

/-- An object with clean texts, all of whose hashed texts are in `T`. -/
def Good (T : List Char → Prop) (plain : Prop) (texts : List (List Char)) : Prop := plain ∧ ∀ t ∈ texts, T t

theorem AnnotatedString.bind (hE : Distinct E T) (a b : AnnotatedString) (ha : Good T a.Plain (a.texts E))
    (hb : Good T b.Plain (b.texts E)) (h : a.cryptoHash E = b.cryptoHash E) : a = b := by
  have nb : ∀ c : AnnotatedString, c.Plain → ∀ x ∈ c.hashArgs, noBar x := by
    intro c hc
    simp only [hashArgs, List.forall_mem_cons]
    exact ⟨noBar_str hc.1, noBar_str hc.2, by simp⟩
  have h1 := hash_toks hE (nb a ha.1) (nb b hb.1) ha.2 hb.2 h
  simp only [hashArgs, List.map_cons, List.cons.injEq] at h1
  obtain ⟨h1, h2, -⟩ := h1
  cases a; cases b
  simp only [AnnotatedString.mk.injEq]
  exact ⟨tok_str_inj h1, tok_str_inj h2⟩

theorem Language.bind (hE : Distinct E T) (a b : Language) (ha : Good T a.Plain (a.texts E))
    (hb : Good T b.Plain (b.texts E)) (h : a.cryptoHash E = b.cryptoHash E) : a = b := by
  have nb : ∀ c : Language, c.Plain → ∀ x ∈ c.hashArgs, noBar x := by
    intro c hc
    simp only [hashArgs, List.forall_mem_cons]
    exact ⟨noBar_str hc.1, noBar_str hc.2, by simp⟩
  have h1 := hash_toks hE (nb a ha.1) (nb b hb.1) ha.2 hb.2 h
  simp only [hashArgs, List.map_cons, List.cons.injEq] at h1
  obtain ⟨h1, h2, -⟩ := h1
  cases a; cases b
  simp only [Language.mk.injEq]
  exact ⟨tok_str_inj h1, tok_str_inj h2⟩

theorem InternationalizedText.bind (hE : Distinct E T) (a b : InternationalizedText)
    (ha : Good T a.Plain (a.texts E)) (hb : Good T b.Plain (b.texts E))
    (h : a.cryptoHash E = b.cryptoHash E) : a = b := by
  have tx : ∀ c : InternationalizedText, Good T c.Plain (c.texts E) →
      (∀ t ∈ hashTexts E (c.hashArgs E), T t) ∧ ∀ l ∈ c.text, Good T l.Plain (l.texts E) := by
    intro c hc
    refine ⟨fun t ht => hc.2 t (by simp [texts, ht]), fun l hl => ⟨hc.1 l hl, fun t ht => hc.2 t ?_⟩⟩
    simp only [texts, List.mem_append, List.mem_flatMap]
    exact .inr ⟨l, hl, ht⟩
  obtain ⟨ta, pa⟩ := tx a ha
  obtain ⟨tb, pb⟩ := tx b hb
  have h1 := hash_toks hE (by simp [hashArgs, noBar]) (by simp [hashArgs, noBar]) ta tb h
  simp only [hashArgs, List.map_cons, List.cons.injEq] at h1
  have := tok_objs hE (g := id) (Language.bind hE) pa pb (fun t ht => ta t (argTexts_mem (by simp [hashArgs]) t ht))
    (fun t ht => tb t (argTexts_mem (by simp [hashArgs]) t ht)) h1.1
  cases a; cases b
  simpa using this

theorem ContactInformation.bind (hE : Distinct E T) (a b : ContactInformation)
    (ha : Good T a.Plain (a.texts E)) (hb : Good T b.Plain (b.texts E))
    (h : a.cryptoHash E = b.cryptoHash E) : a.core = b.core := by
  have tx : ∀ c : ContactInformation, Good T c.Plain (c.texts E) →
      (∀ t ∈ hashTexts E (c.hashArgs E), T t) ∧ (∀ l ∈ c.email, ∀ x ∈ l, Good T x.Plain (x.texts E)) ∧
      (∀ l ∈ c.phone, ∀ x ∈ l, Good T x.Plain (x.texts E)) ∧ ∀ x ∈ c.hashArgs E, noBar x := by
    intro c hc
    refine ⟨fun t ht => hc.2 t (by simp [texts, ht]),
      fun l hl x hx => ⟨hc.1.email l hl x hx, fun t ht => hc.2 t ?_⟩,
      fun l hl x hx => ⟨hc.1.phone l hl x hx, fun t ht => hc.2 t ?_⟩, ?_⟩
    · simp only [texts, List.mem_append, List.mem_flatMap]
      exact .inl (.inr ⟨x, opt_getD hl hx, ht⟩)
    · simp only [texts, List.mem_append, List.mem_flatMap]
      exact .inr ⟨x, opt_getD hl hx, ht⟩
    · simp only [hashArgs, List.forall_mem_cons]
      exact ⟨noBar_ofOptStr hc.1.name, noBar_ofOptList, noBar_ofOptList, noBar_ofOptList, by simp⟩
  obtain ⟨ta, ea, pa, na⟩ := tx a ha
  obtain ⟨tb, eb, pb, nb⟩ := tx b hb
  have h1 := hash_toks hE na nb ta tb h
  simp only [hashArgs, List.map_cons, List.cons.injEq] at h1
  obtain ⟨h1, h2, h3, h4, -⟩ := h1
  have e1 := tok_ofOptStr_inj ha.1.name hb.1.name h1
  have e2 := tok_optStrs hE ha.1.addressLine hb.1.addressLine
    (fun t ht => ta t (argTexts_mem (by simp [hashArgs]) t ht))
    (fun t ht => tb t (argTexts_mem (by simp [hashArgs]) t ht)) h2
  have e3 := tok_optObjs hE (AnnotatedString.bind hE) ea eb
    (fun t ht => ta t (argTexts_mem (by simp [hashArgs]) t ht))
    (fun t ht => tb t (argTexts_mem (by simp [hashArgs]) t ht)) h3
  have e4 := tok_optObjs hE (AnnotatedString.bind hE) pa pb
    (fun t ht => ta t (argTexts_mem (by simp [hashArgs]) t ht))
    (fun t ht => tb t (argTexts_mem (by simp [hashArgs]) t ht)) h4
  simp only [ContactInformation.core, e1, e2, e3, e4]

theorem GeopoliticalUnit.bind (hE : Distinct E T) (a b : GeopoliticalUnit)
    (ha : Good T a.Plain (a.texts E)) (hb : Good T b.Plain (b.texts E))
    (h : a.cryptoHash E = b.cryptoHash E) : a.core = b.core := by
  have tx : ∀ c : GeopoliticalUnit, Good T c.Plain (c.texts E) →
      (∀ t ∈ hashTexts E (c.hashArgs E), T t) ∧ (∀ x ∈ c.contactInformation, Good T x.Plain (x.texts E)) ∧
      ∀ x ∈ c.hashArgs E, noBar x := by
    intro c hc
    refine ⟨fun t ht => hc.2 t (by simp [texts, ht]), fun x hx => ⟨hc.1.contact x hx, fun t ht => hc.2 t ?_⟩, ?_⟩
    · simp only [texts, List.mem_append, List.mem_flatMap]
      exact .inr ⟨x, opt_toList hx, ht⟩
    · simp only [hashArgs, List.forall_mem_cons]
      exact ⟨noBar_str hc.1.objectId, noBar_str hc.1.name, noBar_str hc.1.type, noBar_ofOptObj, by simp⟩
  obtain ⟨ta, pa, na⟩ := tx a ha
  obtain ⟨tb, pb, nb⟩ := tx b hb
  have h1 := hash_toks hE na nb ta tb h
  simp only [hashArgs, List.map_cons, List.cons.injEq] at h1
  obtain ⟨h1, h2, h3, h4, -⟩ := h1
  have e4 := tok_optObj (ContactInformation.bind hE) pa pb h4
  simp only [GeopoliticalUnit.core, tok_str_inj h1, tok_str_inj h2, tok_str_inj h3, e4]

theorem BallotStyle.bind (hE : Distinct E T) (a b : BallotStyle)
    (ha : Good T a.Plain (a.texts E)) (hb : Good T b.Plain (b.texts E))
    (h : a.cryptoHash E = b.cryptoHash E) : a.core = b.core := by
  have nb : ∀ c : BallotStyle, c.Plain → ∀ x ∈ c.hashArgs, noBar x := by
    intro c hc
    simp only [hashArgs, List.forall_mem_cons]
    exact ⟨noBar_str hc.objectId, noBar_ofOptList, noBar_ofOptList, noBar_ofOptStr hc.imageUri, by simp⟩
  have h1 := hash_toks hE (nb a ha.1) (nb b hb.1) ha.2 hb.2 h
  simp only [hashArgs, List.map_cons, List.cons.injEq] at h1
  obtain ⟨h1, h2, h3, h4, -⟩ := h1
  simp only [BallotStyle.core, tok_str_inj h1,
    tok_optStrs hE ha.1.units hb.1.units (fun t ht => ha.2 t (argTexts_mem (by simp [hashArgs]) t ht))
      (fun t ht => hb.2 t (argTexts_mem (by simp [hashArgs]) t ht)) h2,
    tok_optStrs hE ha.1.parties hb.1.parties (fun t ht => ha.2 t (argTexts_mem (by simp [hashArgs]) t ht))
      (fun t ht => hb.2 t (argTexts_mem (by simp [hashArgs]) t ht)) h3,
    tok_ofOptStr_inj ha.1.imageUri hb.1.imageUri h4]

theorem Party.bind (hE : Distinct E T) (a b : Party)
    (ha : Good T a.Plain (a.texts E)) (hb : Good T b.Plain (b.texts E))
    (h : a.cryptoHash E = b.cryptoHash E) : a = b := by
  have tx : ∀ c : Party, Good T c.Plain (c.texts E) →
      (∀ t ∈ hashTexts E (c.hashArgs E), T t) ∧ Good T c.name.Plain (c.name.texts E) ∧
      ∀ x ∈ c.hashArgs E, noBar x := by
    intro c hc
    refine ⟨fun t ht => hc.2 t (by simp [texts, ht]), ⟨hc.1.name, fun t ht => hc.2 t (by simp [texts, ht])⟩, ?_⟩
    simp only [hashArgs, List.forall_mem_cons]
    exact ⟨noBar_str hc.1.objectId, noBar_obj, noBar_ofOptStr hc.1.abbreviation, noBar_ofOptStr hc.1.color,
      noBar_ofOptStr hc.1.logoUri, by simp⟩
  obtain ⟨ta, pa, na⟩ := tx a ha
  obtain ⟨tb, pb, nb⟩ := tx b hb
  have h1 := hash_toks hE na nb ta tb h
  simp only [hashArgs, List.map_cons, List.cons.injEq] at h1
  obtain ⟨h1, h2, h3, h4, h5, -⟩ := h1
  have e1 := tok_str_inj h1
  have e2 := InternationalizedText.bind hE _ _ pa pb (tok_obj_inj h2)
  have e3 := tok_ofOptStr_inj ha.1.abbreviation hb.1.abbreviation h3
  have e4 := tok_ofOptStr_inj ha.1.color hb.1.color h4
  have e5 := tok_ofOptStr_inj ha.1.logoUri hb.1.logoUri h5
  cases a; cases b
  simp only at e1 e2 e3 e4 e5
  simp only [e1, e2, e3, e4, e5]

theorem SelectionDescription.bind (hE : Distinct E T) (a b : SelectionDescription)
    (ha : Good T a.Plain (a.texts E)) (hb : Good T b.Plain (b.texts E))
    (h : a.cryptoHash E = b.cryptoHash E) : a = b := by
  have nb : ∀ c : SelectionDescription, c.Plain → ∀ x ∈ c.hashArgs, noBar x := by
    intro c hc
    simp only [hashArgs, List.forall_mem_cons]
    exact ⟨noBar_str hc.1, noBar_int, noBar_str hc.2, by simp⟩
  have h1 := hash_toks hE (nb a ha.1) (nb b hb.1) ha.2 hb.2 h
  simp only [hashArgs, List.map_cons, List.cons.injEq] at h1
  obtain ⟨h1, h2, h3, -⟩ := h1
  have e1 := tok_str_inj h1
  have e2 := tok_int_inj h2
  have e3 := tok_str_inj h3
  cases a; cases b
  simp only at e1 e2 e3
  simp only [e1, e2, e3]

theorem VoteVariation.name_noBar (v : VoteVariation) : noBar (.str v.name) := by
  cases v <;> simp [noBar, VoteVariation.name]

theorem VoteVariation.name_inj {v w : VoteVariation} (h : v.name = w.name) : v = w := by
  cases v <;> cases w <;> first | rfl | (exfalso; revert h; decide)

theorem ContestDescription.bind (hE : Distinct E T) (a b : ContestDescription)
    (ha : Good T a.Plain (a.texts E)) (hb : Good T b.Plain (b.texts E))
    (h : a.cryptoHash E = b.cryptoHash E) : a.core = b.core := by
  have tx : ∀ c : ContestDescription, Good T c.Plain (c.texts E) →
      (∀ t ∈ hashTexts E (c.hashArgs E), T t) ∧ (∀ x ∈ c.ballotTitle, Good T x.Plain (x.texts E)) ∧
      (∀ x ∈ c.ballotSubtitle, Good T x.Plain (x.texts E)) ∧
      (∀ x ∈ c.ballotSelections, Good T x.Plain (x.texts E)) ∧ ∀ x ∈ c.hashArgs E, noBar x := by
    intro c hc
    refine ⟨fun t ht => hc.2 t (by simp [texts, ht]), fun x hx => ⟨hc.1.title x hx, fun t ht => hc.2 t ?_⟩,
      fun x hx => ⟨hc.1.subtitle x hx, fun t ht => hc.2 t ?_⟩,
      fun x hx => ⟨hc.1.selections x hx, fun t ht => hc.2 t ?_⟩, ?_⟩
    · simp only [texts, List.mem_append, List.mem_flatMap]
      exact .inl (.inl (.inr ⟨x, opt_toList hx, ht⟩))
    · simp only [texts, List.mem_append, List.mem_flatMap]
      exact .inl (.inr ⟨x, opt_toList hx, ht⟩)
    · simp only [texts, List.mem_append, List.mem_flatMap]
      exact .inr ⟨x, hx, ht⟩
    · simp only [hashArgs, List.forall_mem_cons]
      exact ⟨noBar_str hc.1.objectId, noBar_int, noBar_str hc.1.district, VoteVariation.name_noBar _, noBar_ofOptObj,
        noBar_ofOptObj, noBar_str hc.1.name, noBar_int, noBar_ofOptInt, noBar_list, by simp⟩
  obtain ⟨ta, pa, qa, sa, na⟩ := tx a ha
  obtain ⟨tb, pb, qb, sb, nb⟩ := tx b hb
  have h1 := hash_toks hE na nb ta tb h
  simp only [hashArgs, List.map_cons, List.cons.injEq] at h1
  obtain ⟨h1, h2, h3, h4, h5, h6, h7, h8, h9, h10, -⟩ := h1
  have e5 := tok_optObj (g := id) (InternationalizedText.bind hE) pa pb h5
  have e6 := tok_optObj (g := id) (InternationalizedText.bind hE) qa qb h6
  have e10 := tok_objs hE (g := id) (SelectionDescription.bind hE) sa sb
    (fun t ht => ta t (argTexts_mem (by simp [hashArgs]) t ht))
    (fun t ht => tb t (argTexts_mem (by simp [hashArgs]) t ht)) h10
  simp only [Option.map_id, id_eq, List.map_id] at e5 e6 e10
  simp only [ContestDescription.core, tok_str_inj h1, tok_int_inj h2, tok_str_inj h3,
    VoteVariation.name_inj (tok_str_inj h4), e5, e6, tok_str_inj h7, tok_int_inj h8, tok_ofOptInt_inj h9, e10]

theorem Manifest.bind (hE : Distinct E T) (a b : Manifest)
    (ha : Good T a.Plain (a.texts E)) (hb : Good T b.Plain (b.texts E))
    (h : a.cryptoHash E = b.cryptoHash E) : a.core = b.core := by
  have tx : ∀ c : Manifest, Good T c.Plain (c.texts E) →
      (∀ t ∈ hashTexts E (c.hashArgs E), T t) ∧ (∀ x ∈ c.name, Good T x.Plain (x.texts E)) ∧
      (∀ x ∈ c.contactInformation, Good T x.Plain (x.texts E)) ∧
      (∀ x ∈ c.geopoliticalUnits, Good T x.Plain (x.texts E)) ∧
      (∀ x ∈ c.parties, Good T x.Plain (x.texts E)) ∧ (∀ x ∈ c.contests, Good T x.Plain (x.texts E)) ∧
      (∀ x ∈ c.ballotStyles, Good T x.Plain (x.texts E)) ∧ ∀ x ∈ c.hashArgs E, noBar x := by
    intro c hc
    refine ⟨fun t ht => hc.2 t (by simp [texts, ht]), fun x hx => ⟨hc.1.name x hx, fun t ht => hc.2 t ?_⟩,
      fun x hx => ⟨hc.1.contact x hx, fun t ht => hc.2 t ?_⟩,
      fun x hx => ⟨hc.1.units x hx, fun t ht => hc.2 t ?_⟩,
      fun x hx => ⟨hc.1.parties x hx, fun t ht => hc.2 t ?_⟩,
      fun x hx => ⟨hc.1.contests x hx, fun t ht => hc.2 t ?_⟩,
      fun x hx => ⟨hc.1.styles x hx, fun t ht => hc.2 t ?_⟩, ?_⟩
    · simp only [texts, List.mem_append, List.mem_flatMap]
      exact .inl (.inl (.inl (.inl (.inl (.inr ⟨x, opt_toList hx, ht⟩)))))
    · simp only [texts, List.mem_append, List.mem_flatMap]
      exact .inl (.inl (.inl (.inl (.inr ⟨x, opt_toList hx, ht⟩))))
    · simp only [texts, List.mem_append, List.mem_flatMap]
      exact .inl (.inl (.inl (.inr ⟨x, hx, ht⟩)))
    · simp only [texts, List.mem_append, List.mem_flatMap]
      exact .inl (.inl (.inr ⟨x, hx, ht⟩))
    · simp only [texts, List.mem_append, List.mem_flatMap]
      exact .inl (.inr ⟨x, hx, ht⟩)
    · simp only [texts, List.mem_append, List.mem_flatMap]
      exact .inr ⟨x, hx, ht⟩
    · simp only [hashArgs, List.forall_mem_cons]
      exact ⟨noBar_str hc.1.scope, noBar_str hc.1.type, noBar_str hc.1.startDate, noBar_str hc.1.endDate,
        noBar_ofOptObj, noBar_ofOptObj, noBar_list, noBar_list, noBar_list, noBar_list, by simp⟩
  obtain ⟨ta, a1, a2, a3, a4, a5, a6, na⟩ := tx a ha
  obtain ⟨tb, b1, b2, b3, b4, b5, b6, nb⟩ := tx b hb
  have h1 := hash_toks hE na nb ta tb h
  simp only [hashArgs, List.map_cons, List.cons.injEq] at h1
  obtain ⟨h1, h2, h3, h4, h5, h6, h7, h8, h9, h10, -⟩ := h1
  have e5 := tok_optObj (g := id) (InternationalizedText.bind hE) a1 b1 h5
  have e6 := tok_optObj (ContactInformation.bind hE) a2 b2 h6
  have e7 := tok_objs hE (GeopoliticalUnit.bind hE) a3 b3
    (fun t ht => ta t (argTexts_mem (by simp [hashArgs]) t ht))
    (fun t ht => tb t (argTexts_mem (by simp [hashArgs]) t ht)) h7
  have e8 := tok_objs hE (g := id) (Party.bind hE) a4 b4
    (fun t ht => ta t (argTexts_mem (by simp [hashArgs]) t ht))
    (fun t ht => tb t (argTexts_mem (by simp [hashArgs]) t ht)) h8
  have e9 := tok_objs hE (ContestDescription.bind hE) a5 b5
    (fun t ht => ta t (argTexts_mem (by simp [hashArgs]) t ht))
    (fun t ht => tb t (argTexts_mem (by simp [hashArgs]) t ht)) h9
  have e10 := tok_objs hE (BallotStyle.bind hE) a6 b6
    (fun t ht => ta t (argTexts_mem (by simp [hashArgs]) t ht))
    (fun t ht => tb t (argTexts_mem (by simp [hashArgs]) t ht)) h10
  simp only [Option.map_id, id_eq, List.map_id] at e5 e8
  simp only [Manifest.core, tok_str_inj h1, tok_str_inj h2, tok_str_inj h3, tok_str_inj h4, e5, e6, e7, e8, e9, e10]

end EG
