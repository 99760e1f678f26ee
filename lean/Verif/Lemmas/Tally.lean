import Mathlib.Data.List.Basic
import Mathlib.Tactic.Ring
import Verif.Lemmas.Dict
import Verif.Lemmas.Validator
import Verif.Spec.Tally

/-!
# Lemmas about the encrypted tally
-/

namespace EG

variable {P : Params}

/-! ## Multiplication of ciphertexts -/

theorem multP_eq (a b : Nat) : multP P a b = a * b % P.p := by
  simp [multP, multPs, Nat.mod_mul_mod]

theorem ctMul_right_comm (a b c : Ciphertext) : ctMul P (ctMul P a b) c = ctMul P (ctMul P a c) b := by
  simp only [ctMul, multP_eq, Nat.mod_mul_mod, Ciphertext.mk.injEq]
  constructor <;> congr 1 <;> ring

theorem ctMul_assoc (a b c : Ciphertext) : ctMul P (ctMul P a b) c = ctMul P a (ctMul P b c) := by
  simp only [ctMul, multP_eq, Nat.mod_mul_mod, Nat.mul_mod_mod, Ciphertext.mk.injEq]
  constructor <;> congr 1 <;> ring

theorem foldl_ctMul_perm {l l' : List Ciphertext} (h : l.Perm l') (x : Ciphertext) :
    l.foldl (ctMul P) x = l'.foldl (ctMul P) x := by
  have : RightCommutative (ctMul P) := ⟨ctMul_right_comm⟩
  exact h.foldl_eq x

theorem ctMul_foldl (x c : Ciphertext) (l : List Ciphertext) :
    ctMul P x (l.foldl (ctMul P) c) = l.foldl (ctMul P) (ctMul P x c) := by
  induction l generalizing c with
  | nil => rfl
  | cons y l ih => simp only [List.foldl_cons]; rw [ih, ctMul_assoc]

theorem foldl_ctMul_product (hp : 1 < P.p) (l : List Ciphertext) :
    IsProduct P (l.foldl (ctMul P) ⟨1, 1⟩) l := by
  have gen : ∀ (l : List Ciphertext) (x : Ciphertext), x.pad < P.p → x.data < P.p →
      IsProduct P (l.foldl (ctMul P) x) (x :: l) := by
    intro l
    induction l with
    | nil => intro x h1 h2; simp [IsProduct, Nat.mod_eq_of_lt, h1, h2]
    | cons y l ih =>
      intro x h1 h2
      have := ih (ctMul P x y) (by rw [ctMul, multP_eq]; exact Nat.mod_lt _ (by omega))
        (by rw [ctMul, multP_eq]; exact Nat.mod_lt _ (by omega))
      simp only [IsProduct, List.foldl_cons, List.map_cons, List.prod_cons, ctMul, multP_eq, Nat.mod_mul_mod,
        mul_assoc] at this ⊢
      exact this
  have := gen l ⟨1, 1⟩ hp hp
  simpa [IsProduct] using this

/-! ## The explicit effect of an accumulation -/

/-- Multiplying every total by a list of ciphertexts. -/
def bump (P : Params) (f : String → String → List Ciphertext) (tcs : List (String × TallyContest)) :
    List (String × TallyContest) :=
  tcs.map (fun e => (e.1, { e.2 with
    selections := e.2.selections.map (fun s => (s.1, { s.2 with
      ciphertext := (f e.1 s.1).foldl (ctMul P) s.2.ciphertext })) }))

theorem dkeys_bump (f) (tcs : List (String × TallyContest)) : dkeys (bump P f tcs) = dkeys tcs := by
  simp [dkeys, bump, List.map_map, Function.comp_def]

theorem bump_wf (f) {tcs : List (String × TallyContest)} (h : WFContests tcs) : WFContests (bump P f tcs) := by
  refine ⟨by rw [dkeys_bump]; exact h.keys, ?_⟩
  intro e he
  obtain ⟨e', he', rfl⟩ := List.mem_map.1 he
  have := h.sels e' he'
  simpa [dkeys, List.map_map, Function.comp_def] using this

theorem bump_bump (f g) (tcs : List (String × TallyContest)) :
    bump P g (bump P f tcs) = bump P (fun c s => f c s ++ g c s) tcs := by
  simp [bump, List.map_map, Function.comp_def, List.foldl_append]

theorem bump_congr {f g : String → String → List Ciphertext} {tcs : List (String × TallyContest)}
    (h : ∀ e ∈ tcs, ∀ s ∈ e.2.selections, ∀ x, (f e.1 s.1).foldl (ctMul P) x = (g e.1 s.1).foldl (ctMul P) x) :
    bump P f tcs = bump P g tcs := by
  unfold bump
  refine List.map_congr_left (fun e he => ?_)
  have : e.2.selections.map (fun s => (s.1, { s.2 with ciphertext := (f e.1 s.1).foldl (ctMul P) s.2.ciphertext }))
      = e.2.selections.map (fun s => (s.1, { s.2 with ciphertext := (g e.1 s.1).foldl (ctMul P) s.2.ciphertext })) :=
    List.map_congr_left (fun s hs => by rw [h e he s hs])
  rw [this]

theorem bump_nil (tcs : List (String × TallyContest)) : bump P (fun _ _ => []) tcs = tcs := by
  simp [bump]

theorem dget_bump (f) (tcs : List (String × TallyContest)) (cid : String) :
    dget (bump P f tcs) cid = (dget tcs cid).map (fun tc => { tc with
      selections := tc.selections.map (fun s => (s.1, { s.2 with
        ciphertext := (f cid s.1).foldl (ctMul P) s.2.ciphertext })) }) :=
  dget_map_snd tcs (fun e => { e.2 with
    selections := e.2.selections.map (fun s => (s.1, { s.2 with
      ciphertext := (f e.1 s.1).foldl (ctMul P) s.2.ciphertext })) }) cid

theorem total_bump (f) (t : Tally) (tcs) (ht : t.contests = bump P f tcs) (cid sid : String) :
    t.total cid sid = ((dget tcs cid).bind
      (fun tc => (dget tc.selections sid).map TallySelection.ciphertext)).map (fun x => (f cid sid).foldl (ctMul P) x) := by
  unfold Tally.total
  rw [ht, dget_bump]
  cases dget tcs cid with
  | none => rfl
  | some tc =>
    simp only [Option.map_some, Option.bind_some]
    rw [dget_map_snd tc.selections (fun s => { s.2 with
        ciphertext := (f cid s.1).foldl (ctMul P) s.2.ciphertext }) sid]
    cases dget tc.selections sid <;> rfl

/-! ## Writing back the results -/

theorem applyResults_some (kcs : List (String × Ciphertext)) (hk : (dkeys kcs).Nodup)
    (sels : List (String × TallySelection)) :
    applyResults (kcs.map (fun e => (e.1, some e.2))) sels = (true, sels.map (fun e => (e.1,
      match dget kcs e.1 with
      | some c => { e.2 with ciphertext := c }
      | none => e.2))) := by
  induction kcs generalizing sels with
  | nil => simp [applyResults, dget_nil]
  | cons kc kcs ih =>
    obtain ⟨k, c⟩ := kc
    have hk' : k ∉ dkeys kcs ∧ (dkeys kcs).Nodup := by simpa [dkeys] using hk
    rw [List.map_cons, applyResults, ih hk'.2, List.map_map]
    congr 1
    refine List.map_congr_left (fun e _ => ?_)
    simp only [Function.comp, dget_cons]
    by_cases he : e.1 = k
    · subst he
      simp [(dget_eq_none_iff kcs e.1).2 hk'.1]
    · have he' : k ≠ e.1 := fun h => he h.symm
      simp [he, he']

theorem applyResults_true {rs : List (String × Option Ciphertext)} {sels sels'}
    (h : applyResults rs sels = (true, sels')) :
    ∃ kcs : List (String × Ciphertext), rs = kcs.map (fun e => (e.1, some e.2)) := by
  induction rs generalizing sels with
  | nil => exact ⟨[], rfl⟩
  | cons r rs ih =>
    obtain ⟨k, o⟩ := r
    cases o with
    | none => simp [applyResults] at h
    | some c =>
      rw [applyResults] at h
      obtain ⟨kcs, rfl⟩ := ih h
      exact ⟨(k, c) :: kcs, rfl⟩

/-- The first ciphertext of a selection id. -/
def firstCt (ss : List CSelection) (sid : String) : Option Ciphertext :=
  (ss.find? (fun s => s.objectId == sid)).map CSelection.ciphertext

theorem accumulateOne_eq (ss : List CSelection) (e : String × TallySelection) :
    accumulateOne P ss e = (e.1, (firstCt ss e.1).map (fun c => ctMul P e.2.ciphertext c)) := by
  unfold accumulateOne firstCt
  rw [find_comm CSelection.objectId]
  cases ss.find? (fun s => s.objectId == e.1) <;> rfl

/-- The selections of a contest after a successful accumulation. -/
theorem applyResults_all (ss : List CSelection) (sels : List (String × TallySelection)) (hn : (dkeys sels).Nodup)
    (hall : ∀ e ∈ sels, (firstCt ss e.1).isSome = true) :
    applyResults (sels.map (accumulateOne P ss)) sels = (true, sels.map (fun e => (e.1,
      { e.2 with ciphertext := ((firstCt ss e.1).toList).foldl (ctMul P) e.2.ciphertext }))) := by
  have h1 : sels.map (accumulateOne P ss) = (sels.map (fun e => (e.1,
      ((firstCt ss e.1).map (fun c => ctMul P e.2.ciphertext c)).getD ⟨0, 0⟩))).map (fun e => (e.1, some e.2)) := by
    rw [List.map_map]
    refine List.map_congr_left (fun e he => ?_)
    rw [accumulateOne_eq]
    obtain ⟨c, hc⟩ := Option.isSome_iff_exists.1 (hall e he)
    simp [hc]
  have hkeys : dkeys (sels.map (fun e => (e.1,
      ((firstCt ss e.1).map (fun c => ctMul P e.2.ciphertext c)).getD ⟨0, 0⟩))) = dkeys sels := by
    simp [dkeys, List.map_map, Function.comp_def]
  rw [h1, applyResults_some _ (by rw [hkeys]; exact hn)]
  congr 1
  refine List.map_congr_left (fun e he => ?_)
  obtain ⟨c, hc⟩ := Option.isSome_iff_exists.1 (hall e he)
  have : dget (sels.map (fun e => (e.1,
      ((firstCt ss e.1).map (fun c => ctMul P e.2.ciphertext c)).getD ⟨0, 0⟩))) e.1
      = some (ctMul P e.2.ciphertext c) := by
    refine dget_of_mem (by rw [hkeys]; exact hn) ?_
    exact List.mem_map.2 ⟨e, he, by simp [hc]⟩
  rw [this, hc]
  rfl

theorem accumulate_true {tc tc' : TallyContest} {ss : List CSelection} (hn : (dkeys tc.selections).Nodup)
    (h : accumulateContest P true tc ss = (true, tc')) :
    (∀ e ∈ tc.selections, (firstCt ss e.1).isSome = true) ∧ tc' = { tc with
      selections := tc.selections.map (fun e => (e.1,
        { e.2 with ciphertext := ((firstCt ss e.1).toList).foldl (ctMul P) e.2.ciphertext })) } := by
  unfold accumulateContest at h
  split at h
  · simp at h
  · simp only at h
    split at h
    · simp at h
    · simp only [schedule, if_true, Prod.mk.injEq] at h
      obtain ⟨h1, h2⟩ := h
      obtain ⟨kcs, hk⟩ := applyResults_true (sels' := (applyResults
        (tc.selections.map (accumulateOne P ss)) tc.selections).2) (Prod.ext h1 rfl)
      have hall : ∀ e ∈ tc.selections, (firstCt ss e.1).isSome = true := by
        intro e he
        have hm : accumulateOne P ss e ∈ kcs.map (fun e => (e.1, some e.2)) := by
          rw [← hk]; exact List.mem_map_of_mem he
        obtain ⟨kc, -, hkc⟩ := List.mem_map.1 hm
        rw [accumulateOne_eq] at hkc
        cases hf : firstCt ss e.1 with
        | none => rw [hf] at hkc; simp at hkc
        | some c => rfl
      refine ⟨hall, ?_⟩
      rw [← h2, applyResults_all ss tc.selections hn hall]

theorem accumulate_ok {tc : TallyContest} {ss : List CSelection} (hn : (dkeys tc.selections).Nodup) (hne : ss ≠ [])
    (h : ∀ k ∈ dkeys tc.selections, ∃ s ∈ ss, s.objectId = k ∧ s.isPlaceholder = false) :
    (accumulateContest P true tc ss).1 = true := by
  unfold accumulateContest
  rw [if_neg (by simpa using hne)]
  simp only
  have hm : (dkeys tc.selections).filter (fun k => !decide (k ∈ (ss.filter (fun s => !s.isPlaceholder)).map
      (·.objectId))) = [] := by
    rw [List.filter_eq_nil_iff]
    intro k hk
    obtain ⟨s, hs, h1, h2⟩ := h k hk
    simp only [Bool.not_eq_true', decide_eq_false_iff_not, not_not]
    exact List.mem_map.2 ⟨s, List.mem_filter.2 ⟨hs, by simp [h2]⟩, h1⟩
  rw [hm]
  simp only [List.any_nil, Bool.false_eq_true, if_false, schedule, if_true]
  rw [applyResults_all ss tc.selections hn]
  intro e he
  obtain ⟨s, hs, h1, -⟩ := h e.1 (List.mem_map_of_mem he)
  unfold firstCt
  rw [Option.isSome_map, List.find?_isSome]
  exact ⟨s, hs, by simpa using h1⟩

/-! ## The loop over the contests of a ballot -/

theorem contribution_cons (c : CContest) (cs : List CContest) (cid sid : String) :
    contribution (c :: cs) cid sid =
      (if c.objectId = cid then (firstCt c.ballotSelections sid).toList else []) ++ contribution cs cid sid := by
  unfold contribution firstCt
  by_cases h : c.objectId = cid
  · rw [List.filter_cons_of_pos (by simpa using h), if_pos h, List.filterMap_cons]
    cases (c.ballotSelections.find? (fun s => s.objectId == sid)) <;> rfl
  · rw [List.filter_cons_of_neg (by simpa using h), if_neg h]; rfl

theorem dset_eq_map {α : Type} {d : List (String × α)} {k : String} {v v' : α}
    (h : dget d k = some v) : dset d k v' = d.map (fun e => (e.1, if e.1 = k then v' else e.2)) := by
  have hk : k ∈ dkeys d := (mem_dkeys_iff d k).2 ⟨v, h⟩
  have hany : d.any (fun e => e.1 == k) = true := by
    simp only [List.any_eq_true, beq_iff_eq]
    obtain ⟨e, he, rfl⟩ := List.mem_map.1 hk
    exact ⟨e, he, rfl⟩
  unfold dset
  rw [if_pos hany]
  refine List.map_congr_left (fun e _ => ?_)
  by_cases h : e.1 = k <;> simp [h]

theorem addCastLoop_true {cs : List CContest} {tcs tcs' : List (String × TallyContest)} (hw : WFContests tcs)
    (h : addCastLoop P true cs tcs = (true, tcs')) : tcs' = bump P (contribution cs) tcs := by
  induction cs generalizing tcs with
  | nil =>
    simp only [addCastLoop, Prod.mk.injEq, true_and] at h
    rw [← h]
    have : contribution [] = fun _ _ => [] := rfl
    rw [this, bump_nil]
  | cons c cs ih =>
    rw [addCastLoop] at h
    cases hg : dget tcs c.objectId with
    | none => rw [hg] at h; simp at h
    | some tc =>
      rw [hg] at h
      simp only at h
      cases hr : accumulateContest P true tc c.ballotSelections with
      | mk ok tc' =>
        rw [hr] at h
        cases ok with
        | false => simp at h
        | true =>
          simp only [Bool.true_eq_false, if_false] at h
          have hmem := mem_of_dget hg
          obtain ⟨hall, htc'⟩ := accumulate_true (hw.sels _ hmem) hr
          have hd : dset tcs c.objectId tc' = bump P (contribution [c]) tcs := by
            rw [dset_eq_map hg]
            unfold bump
            refine List.map_congr_left (fun e he => ?_)
            by_cases hk : e.1 = c.objectId
            · have hee : e.2 = tc := by
                have : dget tcs e.1 = some e.2 := dget_of_mem hw.keys (by simpa using he)
                rw [hk, hg] at this; cases this; rfl
              rw [if_pos hk, htc', hee]
              congr 2
              refine List.map_congr_left (fun s _ => ?_)
              rw [contribution_cons, if_pos hk.symm]
              simp [contribution]
            · rw [if_neg hk]
              have hk' : c.objectId ≠ e.1 := fun h => hk h.symm
              simp [hk', contribution]
          rw [ih (hd ▸ bump_wf _ hw) h, hd, bump_bump]
          congr 1
          funext cid sid
          rw [contribution_cons c cs, contribution_cons c []]
          simp [contribution]

theorem bump_shape {m : InternalManifest} {f} {tcs : List (String × TallyContest)} (h : Shape m tcs) :
    Shape m (bump P f tcs) := by
  constructor
  · intro d hd
    obtain ⟨tc, htc⟩ := h.contests d hd
    rw [dget_bump, htc]; exact ⟨_, rfl⟩
  · intro cid tc htc
    rw [dget_bump] at htc
    cases hg : dget tcs cid with
    | none => rw [hg] at htc; cases htc
    | some tc0 =>
      rw [hg] at htc; cases htc
      obtain ⟨d, hd, h1, h2⟩ := h.sels cid tc0 hg
      refine ⟨d, hd, h1, fun k hk => h2 k ?_⟩
      simpa [dkeys, List.map_map, Function.comp_def] using hk

theorem eq_of_id {α : Type} {f : α → String} {l : List α} (hn : (l.map f).Nodup) {a b : α} (ha : a ∈ l) (hb : b ∈ l)
    (h : f a = f b) : a = b := List.inj_on_of_nodup_map hn ha hb h

theorem find_of_nodup {α : Type} {f : α → String} {l : List α} (hn : (l.map f).Nodup) {a : α} (ha : a ∈ l) :
    l.find? (fun x => f x == f a) = some a := by
  cases hf : l.find? (fun x => f x == f a) with
  | none =>
    rw [List.find?_eq_none] at hf
    exact absurd (by simp) (hf a ha)
  | some b =>
    rw [eq_of_id hn (List.mem_of_find?_eq_some hf) ha (by simpa using List.find?_some hf)]

/-- A regular ballot that matches its style can always be added. -/
theorem addCastLoop_regular {E : Env} {m : InternalManifest} (hm : TallyManifest m) {b : CBallot} (hr : b.Regular m)
    (hs : b.MatchesStyle E m) {tcs : List (String × TallyContest)} (hw : WFContests tcs) (hsh : Shape m tcs) :
    (addCastLoop P true b.contests tcs).1 = true := by
  have gen : ∀ (cs : List CContest), (∀ c ∈ cs, c ∈ b.contests) → ∀ tcs, WFContests tcs → Shape m tcs →
      (addCastLoop P true cs tcs).1 = true := by
    intro cs
    induction cs with
    | nil => intros; rfl
    | cons c cs ih =>
      intro hsub tcs hw hsh
      have hc := hsub c List.mem_cons_self
      obtain ⟨d, hd, hid⟩ := hr.style c hc
      have hdm : d ∈ m.contests := by
        obtain ⟨_, _, _, _, h, _⟩ := hd; exact h
      obtain ⟨c', hf, hmt⟩ := hs d hd
      have hcc : c' = c := by
        have := find_of_nodup hr.ids hc
        rw [← hid, hf] at this; cases this; rfl
      subst hcc
      obtain ⟨tc, htc⟩ := hsh.contests d hdm
      rw [hid] at htc
      have hacc : (accumulateContest P true tc c'.ballotSelections).1 = true := by
        refine accumulate_ok (hw.sels _ (mem_of_dget htc)) ?_ ?_
        · intro h0
          have := hmt.count
          rw [h0] at this
          have hne := hm.nonempty d hdm
          rcases hl : d.ballotSelections with _ | ⟨x, xs⟩
          · exact hne hl
          · rw [hl] at this; simp at this; omega
        · intro k hk
          obtain ⟨d', hd', hid', hks⟩ := hsh.sels _ _ htc
          have hdd : d' = d := eq_of_id hm.ids hd' hdm (hid'.trans hid.symm)
          subst hdd
          obtain ⟨sd, hsd, rfl⟩ := hks k hk
          obtain ⟨s, hfs, -⟩ := hmt.selections sd hsd
          have hsm := List.mem_of_find?_eq_some hfs
          have hsi : s.objectId = sd.objectId := by simpa using List.find?_some hfs
          refine ⟨s, hsm, hsi, ?_⟩
          cases hp : s.isPlaceholder with
          | false => rfl
          | true => exact absurd hsi.symm (hr.flags c' hc d' hdm hid s hsm hp sd hsd)
      rw [addCastLoop, htc]
      simp only
      cases hx : accumulateContest P true tc c'.ballotSelections with
      | mk ok tc' =>
        rw [hx] at hacc
        simp only at hacc
        subst hacc
        simp only [Bool.true_eq_false, if_false]
        have h1 : addCastLoop P true [c'] tcs = (true, dset tcs c'.objectId tc') := by
          rw [addCastLoop, htc]; simp only [hx, Bool.true_eq_false, if_false]; rfl
        have h2 := addCastLoop_true hw h1
        rw [h2]
        exact ih (fun c hc => hsub c (List.mem_cons_of_mem _ hc)) _ (bump_wf _ hw) (bump_shape hsh)
  exact gen b.contests (fun _ h => h) tcs hw hsh

/-! ## A new tally -/

theorem foldl_dset_nodup {α β : Type} (k : α → String) (v : α → β) (l : List α) (d : List (String × β))
    (h : (dkeys d).Nodup) : (dkeys (l.foldl (fun d x => dset d (k x) (v x)) d)).Nodup := by
  induction l generalizing d with
  | nil => exact h
  | cons x l ih => exact ih _ (dset_nodup h _ _)

theorem dget_foldl_dset {α β : Type} (k : α → String) (v : α → β) (l : List α) (d : List (String × β)) (key : String)
    (x : β) (h : dget (l.foldl (fun d x => dset d (k x) (v x)) d) key = some x) :
    dget d key = some x ∨ ∃ a ∈ l, k a = key ∧ v a = x := by
  induction l generalizing d with
  | nil => exact Or.inl h
  | cons a l ih =>
    rcases ih _ h with h' | ⟨b, hb, h'⟩
    · rw [dget_dset] at h'
      split at h'
      · right; cases h'; exact ⟨a, List.mem_cons_self, by assumption, rfl⟩
      · exact Or.inl h'
    · exact Or.inr ⟨b, List.mem_cons_of_mem _ hb, h'⟩

theorem dget_foldl_dset_isSome {α β : Type} (k : α → String) (v : α → β) (l : List α) (d : List (String × β))
    (key : String) (h : key ∈ dkeys d ∨ ∃ a ∈ l, k a = key) :
    ∃ x, dget (l.foldl (fun d x => dset d (k x) (v x)) d) key = some x := by
  induction l generalizing d with
  | nil =>
    rcases h with h | ⟨a, ha, -⟩
    · exact (mem_dkeys_iff _ _).1 h
    · cases ha
  | cons a l ih =>
    refine ih _ ?_
    rcases h with h | ⟨b, hb, h⟩
    · left; rw [dkeys_dset]; split <;> simp [h]
    · rcases List.mem_cons.1 hb with rfl | hb
      · left; rw [dkeys_dset]; split <;> simp_all
      · exact Or.inr ⟨b, hb, h⟩

/-- The entry of a contest in a new tally. -/
def newEntry (E : Env) (c : ContestWithPlaceholders) : TallyContest :=
  ⟨c.objectId, c.sequenceOrder, c.cryptoHash E, c.ballotSelections.foldl (fun d s =>
      dset d s.objectId ⟨s.objectId, s.sequenceOrder, s.cryptoHash E, ⟨1, 1⟩⟩) []⟩

theorem buildTallyCollection_eq (E : Env) (m : InternalManifest) :
    buildTallyCollection E m = m.contests.foldl (fun d c => dset d c.objectId (newEntry E c)) [] := rfl

theorem newTally_wf (E : Env) (m : InternalManifest) : WFContests (buildTallyCollection E m) := by
  rw [buildTallyCollection_eq]
  have hk := foldl_dset_nodup (fun c : ContestWithPlaceholders => c.objectId) (newEntry E) m.contests []
    (by simp [dkeys])
  refine ⟨hk, ?_⟩
  intro e he
  have := dget_of_mem hk (k := e.1) (v := e.2) he
  rcases dget_foldl_dset _ _ _ _ _ _ this with h | ⟨a, -, -, h⟩
  · simp [dget_nil] at h
  · rw [← h]
    exact foldl_dset_nodup (fun s : SelectionDescription => s.objectId) _ _ _ (by simp [dkeys])

theorem newTally_shape (E : Env) (m : InternalManifest) : Shape m (buildTallyCollection E m) := by
  rw [buildTallyCollection_eq]
  constructor
  · intro d hd
    exact dget_foldl_dset_isSome _ _ _ _ _ (Or.inr ⟨d, hd, rfl⟩)
  · intro cid tc h
    rcases dget_foldl_dset _ _ _ _ _ _ h with h | ⟨d, hd, h1, h2⟩
    · simp [dget_nil] at h
    · refine ⟨d, hd, h1, ?_⟩
      rw [← h2]
      intro k hk
      obtain ⟨x, hx⟩ := (mem_dkeys_iff _ _).1 hk
      rcases dget_foldl_dset (fun s : SelectionDescription => s.objectId)
        (fun s => (⟨s.objectId, s.sequenceOrder, s.cryptoHash E, ⟨1, 1⟩⟩ : TallySelection)) _ _ _ _ hx
        with h | ⟨sd, hsd, h3, -⟩
      · simp [dget_nil] at h
      · exact ⟨sd, hsd, h3⟩

/-- A new tally holds the neutral ciphertext for every selection of the manifest, and for nothing else. -/
theorem newTally_total (E : Env) (id : String) (m : InternalManifest) (hm : TallyManifest m) (cid sid : String) :
    (newTally E id m).total cid sid =
      if ∃ d ∈ m.contests, d.objectId = cid ∧ ∃ sd ∈ d.ballotSelections, sd.objectId = sid then some ⟨1, 1⟩
      else none := by
  unfold newTally Tally.total
  simp only [buildTallyCollection_eq]
  split
  · rename_i h
    obtain ⟨d, hd, rfl, sd, hsd, rfl⟩ := h
    obtain ⟨tc, htc⟩ := dget_foldl_dset_isSome (fun c : ContestWithPlaceholders => c.objectId) (newEntry E)
      m.contests [] d.objectId (Or.inr ⟨d, hd, rfl⟩)
    rw [htc]
    rcases dget_foldl_dset _ _ _ _ _ _ htc with h | ⟨d', hd', h1, h2⟩
    · simp [dget_nil] at h
    · have : d' = d := eq_of_id hm.ids hd' hd h1
      subst this
      rw [← h2]
      obtain ⟨x, hx⟩ := dget_foldl_dset_isSome (fun s : SelectionDescription => s.objectId)
        (fun s => (⟨s.objectId, s.sequenceOrder, s.cryptoHash E, ⟨1, 1⟩⟩ : TallySelection)) d'.ballotSelections []
        sd.objectId (Or.inr ⟨sd, hsd, rfl⟩)
      simp only [Option.bind_some, newEntry]
      rw [hx]
      rcases dget_foldl_dset _ _ _ _ _ _ hx with h | ⟨y, -, -, h3⟩
      · simp [dget_nil] at h
      · rw [← h3]; rfl
  · rename_i h
    cases htc : dget (m.contests.foldl (fun d c => dset d c.objectId (newEntry E c)) []) cid with
    | none => rfl
    | some tc =>
      rcases dget_foldl_dset _ _ _ _ _ _ htc with h' | ⟨d', hd', h1, h2⟩
      · simp [dget_nil] at h'
      · simp only [Option.bind_some, ← h2, newEntry]
        cases hx : dget (d'.ballotSelections.foldl (fun d s =>
            dset d s.objectId (⟨s.objectId, s.sequenceOrder, s.cryptoHash E, ⟨1, 1⟩⟩ : TallySelection)) []) sid with
        | none => rfl
        | some x =>
          rcases dget_foldl_dset _ _ _ _ _ _ hx with h' | ⟨y, hy, h3, -⟩
          · simp [dget_nil] at h'
          · exact absurd ⟨d', hd', h1, y, hy, h3⟩ h

/-! ## Histories -/

theorem applyResults_keys (rs : List (String × Option Ciphertext)) (sels : List (String × TallySelection)) :
    dkeys (applyResults rs sels).2 = dkeys sels := by
  induction rs generalizing sels with
  | nil => rfl
  | cons r rs ih =>
    obtain ⟨k, o⟩ := r
    cases o with
    | none => rfl
    | some c =>
      rw [applyResults, ih]
      simp only [dkeys, List.map_map]
      refine List.map_congr_left (fun e _ => ?_)
      simp only [Function.comp]
      split <;> rfl

theorem accumulate_keys (up : Bool) (tc : TallyContest) (ss : List CSelection) :
    dkeys (accumulateContest P up tc ss).2.selections = dkeys tc.selections := by
  unfold accumulateContest
  split
  · rfl
  · simp only
    split
    · rfl
    · exact applyResults_keys _ _

theorem addCastLoop_keeps (m : InternalManifest) (up : Bool) (cs : List CContest)
    (tcs : List (String × TallyContest)) (hw : WFContests tcs) (hs : Shape m tcs) :
    WFContests (addCastLoop P up cs tcs).2 ∧ Shape m (addCastLoop P up cs tcs).2 := by
  induction cs generalizing tcs with
  | nil => exact ⟨hw, hs⟩
  | cons c cs ih =>
    rw [addCastLoop]
    cases hg : dget tcs c.objectId with
    | none => exact ⟨hw, hs⟩
    | some tc =>
      simp only
      have hw' : WFContests (dset tcs c.objectId (accumulateContest P up tc c.ballotSelections).2) := by
        refine ⟨dset_nodup hw.keys _ _, ?_⟩
        rw [dset_eq_map hg]
        intro e he
        obtain ⟨e', he', rfl⟩ := List.mem_map.1 he
        simp only
        split
        · rw [accumulate_keys]; exact hw.sels _ (mem_of_dget hg)
        · exact hw.sels _ he'
      have hs' : Shape m (dset tcs c.objectId (accumulateContest P up tc c.ballotSelections).2) := by
        constructor
        · intro d hd
          rw [dget_dset]
          split
          · exact ⟨_, rfl⟩
          · exact hs.contests d hd
        · intro cid tc' h
          rw [dget_dset] at h
          split at h
          · rename_i hc
            cases h
            rw [accumulate_keys]
            exact hs.sels cid tc (hc ▸ hg)
          · exact hs.sels cid tc' h
      split
      · exact ⟨hw', hs'⟩
      · exact ih _ hw' hs'

theorem append_keeps (E : Env) (m : InternalManifest) (ctx : Context) (up : Bool) (t : Tally) (b : SBallot)
    (validate : Bool) (hw : WFContests t.contests) (hs : Shape m t.contests) :
    WFContests (t.append E m ctx up b validate).2.contests ∧ Shape m (t.append E m ctx up b validate).2.contests := by
  unfold Tally.append
  split
  · exact ⟨hw, hs⟩
  · split
    · exact ⟨hw, hs⟩
    · split
      · exact ⟨hw, hs⟩
      · exact ⟨hw, hs⟩
      · split
        · have := addCastLoop_keeps (P := E.P) m up b.contests t.contests hw hs
          unfold addCast
          simp only
          split <;> exact this
        · exact ⟨hw, hs⟩
        · exact ⟨hw, hs⟩

/-- Every tally obtained by appending any ballots to a new tally has the dicts of the manifest. -/
theorem runAppends_keeps (E : Env) (m : InternalManifest) (ctx : Context) (up validate : Bool) (bs : List SBallot)
    (t : Tally) (hw : WFContests t.contests) (hs : Shape m t.contests) :
    WFContests (runAppends E m ctx up validate t bs).2.contests ∧
      Shape m (runAppends E m ctx up validate t bs).2.contests := by
  induction bs generalizing t with
  | nil => exact ⟨hw, hs⟩
  | cons b bs ih =>
    obtain ⟨h1, h2⟩ := append_keeps E m ctx up t b validate hw hs
    exact ih _ h1 h2

/-! ## append -/

/-- What `append` does. -/
theorem append_cases (E : Env) (m : InternalManifest) (ctx : Context) (t : Tally) (b : SBallot) (validate : Bool) :
    (t.append E m ctx true b validate).1 ≠ .ok true ∧
      ((t.append E m ctx true b validate).2 = t ∨
        b.state = .cast ∧ t.contains b = false ∧ b.toCBallot.MatchesStyle E m ∧
          (addCastLoop E.P true b.contests t.contests).1 = false) ∨
    (t.append E m ctx true b validate).1 = .ok true ∧ t.contains b = false ∧
      ballotIsValidForElection E b.toCBallot m ctx validate = .ok true ∧
      ((b.state = .spoiled ∧ (t.append E m ctx true b validate).2 = addSpoiled t b) ∨
       (b.state = .cast ∧ (addCastLoop E.P true b.contests t.contests).1 = true ∧
        (t.append E m ctx true b validate).2 = { t with
          contests := (addCastLoop E.P true b.contests t.contests).2
          castIds := setAdd t.castIds b.objectId })) := by
  unfold Tally.append
  by_cases hu : b.state = .unknown
  · left; rw [if_pos hu]; simp
  · rw [if_neg hu]
    cases hc : t.contains b with
    | true => left; simp
    | false =>
      simp only [Bool.false_eq_true, if_false]
      cases hv : ballotIsValidForElection E b.toCBallot m ctx validate with
      | error e => left; simp
      | ok r =>
        cases r with
        | false => left; simp
        | true =>
          simp only
          cases hst : b.state with
          | unknown => exact absurd hst hu
          | spoiled => right; simp
          | cast =>
            simp only
            cases hl : (addCastLoop E.P true b.contests t.contests).1 with
            | false =>
              left
              refine ⟨by simp [addCast, hl], Or.inr ⟨trivial, trivial, ?_, rfl⟩⟩
              have h1 := (ballotIsValidForElection_true E _ m ctx validate hv).1
              rcases ballotIsValidForStyle_cases E b.toCBallot m with ⟨-, h⟩ | ⟨-, r, h, hr⟩
              · rw [h] at h1; cases h1
              · rw [h1] at h; cases h; exact hr.1 rfl
            | true => right; simp [addCast, hl]

theorem setAdd_mem (s : List String) (x y : String) : y ∈ setAdd s x ↔ y ∈ s ∨ y = x := by
  unfold setAdd
  split
  · rename_i h
    constructor
    · exact Or.inl
    · rintro (h' | rfl)
      · exact h'
      · exact h
  · simp

end EG
