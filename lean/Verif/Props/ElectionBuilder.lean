import Verif.Model.ElectionBuilder
import Verif.Spec.ToyElection
import Verif.Props.Manifest
import Verif.Props.Hash
import Verif.Lemmas.Dict

/-!
# C67: the election builder
-/

namespace EG

variable {E : Env}

/-- The last value among some calls. -/
def lastOf {α β : Type} (f : α → Option β) (l : List α) : Option β := (l.filterMap f).getLast?

/-- The key a call sets. -/
def BuilderOp.key? : BuilderOp → Option Nat
  | .setPublicKey k => some k
  | _ => none

/-- The commitment hash a call sets. -/
def BuilderOp.hash? : BuilderOp → Option Nat
  | .setCommitmentHash h => some h
  | _ => none

/-- The value a call gives to a name. -/
def BuilderOp.value? (name : String) : BuilderOp → Option String
  | .addExtendedDataField n v => if n = name then some v else none
  | _ => none

theorem lastOf_append {α β : Type} (f : α → Option β) (l : List α) (a : α) :
    lastOf f (l ++ [a]) = (f a).or (lastOf f l) := by
  unfold lastOf
  rw [List.filterMap_append]
  cases h : f a with
  | none => simp [h]
  | some b => simp [h]

theorem builder_steps (b : ElectionBuilder) (h1 : b.electionKey = none) (h2 : b.commitmentHash = none)
    (h3 : b.extendedData = none) (ops : List BuilderOp) :
    (ops.foldl ElectionBuilder.step b).numberOfGuardians = b.numberOfGuardians ∧
    (ops.foldl ElectionBuilder.step b).quorum = b.quorum ∧
    (ops.foldl ElectionBuilder.step b).manifest = b.manifest ∧
    (ops.foldl ElectionBuilder.step b).internalManifest = b.internalManifest ∧
    (ops.foldl ElectionBuilder.step b).electionKey = lastOf BuilderOp.key? ops ∧
    (ops.foldl ElectionBuilder.step b).commitmentHash = lastOf BuilderOp.hash? ops ∧
    ∀ name, dget ((ops.foldl ElectionBuilder.step b).extendedData.getD []) name = lastOf (BuilderOp.value? name) ops := by
  induction ops using List.reverseRecOn with
  | nil => simp [lastOf, h1, h2, h3, dget]
  | append_singleton ops o ih =>
    obtain ⟨a1, a2, a3, a4, a5, a6, a7⟩ := ih
    rw [List.foldl_append, List.foldl_cons, List.foldl_nil]
    simp only [lastOf_append]
    cases o with
    | setPublicKey k =>
      exact ⟨a1, a2, a3, a4, rfl, a6, a7⟩
    | setCommitmentHash h =>
      exact ⟨a1, a2, a3, a4, a5, rfl, a7⟩
    | addExtendedDataField n v =>
      refine ⟨a1, a2, a3, a4, a5, a6, fun name => ?_⟩
      simp only [ElectionBuilder.step, ElectionBuilder.addExtendedDataField, Option.getD_some, BuilderOp.value?]
      rw [dget_dset]
      by_cases hn : n = name
      · subst hn; simp
      · rw [if_neg hn, if_neg hn, Option.none_or]
        exact a7 name

/-- C67 If the builder returns an election, the manifest is well formed, and a key and a commitment hash were
set (`C67_build_outcome` is the converse); the election has the internal manifest of the manifest, the given numbers, the last key and commitment hash set, the hash of the
manifest, and under every name the last extended data added. -/
theorem C67_build_result (n k : Int) (m : Manifest) (b : ElectionBuilder) (hb : ElectionBuilder.new E n k m = .ok b)
    (ops : List BuilderOp) (im : InternalManifest) (ctx : Context) (ext : Option (List (String × String))) :
    (ops.foldl ElectionBuilder.step b).build E = .ok (some (im, ctx, ext)) →
      ManifestOk m ∧ mkInternalManifest E m = .ok im ∧ ctx.numberOfGuardians = n ∧ ctx.quorum = k ∧
      lastOf BuilderOp.key? ops = some ctx.elgamalPublicKey ∧ lastOf BuilderOp.hash? ops = some ctx.commitmentHash ∧
      ctx.manifestHash = m.cryptoHash E ∧ ctx.manifestHash = im.manifestHash ∧
      ∀ name, dget (ext.getD []) name = lastOf (BuilderOp.value? name) ops := by
  unfold ElectionBuilder.new at hb
  simp only [bind, Except.bind] at hb
  cases hi : mkInternalManifest E m with
  | error e => rw [hi] at hb; cases hb
  | ok im' =>
    rw [hi] at hb
    cases hb
    obtain ⟨a1, a2, a3, a4, a5, a6, a7⟩ := builder_steps ⟨n, k, m, im', none, none, none⟩ rfl rfl rfl ops
    intro h
    unfold ElectionBuilder.build at h
    rw [a1, a2, a3, a4, a5, a6] at h
    by_cases hm : m.isValid = true
    · simp only [hm, Bool.not_true, Bool.false_eq_true, if_false] at h
      cases hk : lastOf BuilderOp.key? ops with
      | none => rw [hk] at h; cases h
      | some K =>
        rw [hk] at h
        simp only at h
        cases hh : lastOf BuilderOp.hash? ops with
        | none => rw [hh] at h; cases h
        | some H =>
          rw [hh] at h
          have h' : (.ok (some (im', makeContext E n k K H (m.cryptoHash E),
            (ops.foldl ElectionBuilder.step ⟨n, k, m, im', none, none, none⟩).extendedData)) :
              R (Option (InternalManifest × Context × Option (List (String × String))))) = .ok (some (im, ctx, ext)) := h
          simp only [Except.ok.injEq, Option.some.injEq, Prod.mk.injEq] at h'
          obtain ⟨rfl, rfl, rfl⟩ := h'
          refine ⟨(C41_iff_partial m).1 hm, rfl, rfl, rfl, rfl, rfl, rfl, ?_, a7⟩
          unfold mkInternalManifest at hi
          simp only [bind, Except.bind] at hi
          cases hg : generateContestsWithPlaceholders m with
          | error e => rw [hg] at hi; cases hi
          | ok cs => rw [hg] at hi; cases hi; rfl
    · simp only [hm, Bool.not_false, if_true] at h
      cases h

/-- C67 When the builder returns no election or raises: nothing for a manifest that is not well formed or without a key, an
exception for a missing commitment hash, an election otherwise. -/
theorem C67_build_outcome (n k : Int) (m : Manifest) (b : ElectionBuilder) (hb : ElectionBuilder.new E n k m = .ok b)
    (ops : List BuilderOp) :
    ((ops.foldl ElectionBuilder.step b).build E = .ok none ↔ ¬ ManifestOk m ∨ lastOf BuilderOp.key? ops = none) ∧
    ((ops.foldl ElectionBuilder.step b).build E = .error .assertion ↔
      ManifestOk m ∧ (lastOf BuilderOp.key? ops).isSome ∧ lastOf BuilderOp.hash? ops = none) ∧
    ((∃ x, (ops.foldl ElectionBuilder.step b).build E = .ok (some x)) ↔
      ManifestOk m ∧ (lastOf BuilderOp.key? ops).isSome ∧ (lastOf BuilderOp.hash? ops).isSome) := by
  unfold ElectionBuilder.new at hb
  simp only [bind, Except.bind] at hb
  cases hi : mkInternalManifest E m with
  | error e => rw [hi] at hb; cases hb
  | ok im' =>
    rw [hi] at hb
    cases hb
    obtain ⟨a1, a2, a3, a4, a5, a6, a7⟩ := builder_steps ⟨n, k, m, im', none, none, none⟩ rfl rfl rfl ops
    unfold ElectionBuilder.build
    rw [a1, a2, a3, a4, a5, a6, ← C41_iff_partial]
    cases hm : m.isValid
    · simp
    · cases hk : lastOf BuilderOp.key? ops with
      | none => simp
      | some K =>
        cases hh : lastOf BuilderOp.hash? ops with
        | none => simp [getOptional, bind, Except.bind]
        | some H => simp [getOptional, bind, Except.bind, pure, Except.pure]

/-- The texts hashed to make a context. -/
def contextTexts (E : Env) (ctx : Context) : List (List Char) :=
  hashTexts E [.elem E.P.p, .elem E.P.q, .elem E.P.g, .int ctx.numberOfGuardians, .int ctx.quorum,
    .elem ctx.manifestHash] ++ hashTexts E [.elem ctx.cryptoBaseHash, .elem ctx.commitmentHash]

/-- C67 The extended base hash, which goes into all proofs, binds the election: two elections with the same one have the
same numbers, manifest hash and commitment hash, or a collision among the texts hashed for them. -/
theorem C67_extended_hash_binds (n n' k k' : Int) (K K' h h' mh mh' : Nat)
    (heq : (makeContext E n k K h mh).cryptoExtendedBaseHash = (makeContext E n' k' K' h' mh').cryptoExtendedBaseHash) :
    (n = n' ∧ k = k' ∧ h = h' ∧ mh = mh') ∨
    CollisionIn E (contextTexts E (makeContext E n k K h mh) ++ contextTexts E (makeContext E n' k' K' h' mh')) := by
  have mono : ∀ {T T' : List (List Char)}, CollisionIn E T → (∀ t ∈ T, t ∈ T') → CollisionIn E T' := by
    rintro T T' ⟨t, ht, t', ht', hne, he⟩ hs
    exact ⟨t, hs t ht, t', hs t' ht', hne, he⟩
  rcases C21_binding_partial E [.elem (makeContext E n k K h mh).cryptoBaseHash, .elem h]
      [.elem (makeContext E n' k' K' h' mh').cryptoBaseHash, .elem h'] (by simp [sameKinds, sameKind]) heq with h1 | h1
  · simp only [List.cons.injEq, HArg.elem.injEq, and_true] at h1
    rcases C21_binding_partial E [.elem E.P.p, .elem E.P.q, .elem E.P.g, .int n, .int k, .elem mh]
      [.elem E.P.p, .elem E.P.q, .elem E.P.g, .int n', .int k', .elem mh'] (by simp [sameKinds, sameKind]) h1.1 with h2 | h2
    · simp only [List.cons.injEq, HArg.elem.injEq, HArg.int.injEq, and_true, true_and] at h2
      exact Or.inl ⟨h2.1, h2.2.1, h1.2, h2.2.2⟩
    · refine Or.inr (mono h2 (fun t ht => ?_))
      unfold contextTexts
      simp only [List.mem_append] at ht ⊢
      rcases ht with ht | ht
      · exact Or.inl (Or.inl ht)
      · exact Or.inr (Or.inl ht)
  · refine Or.inr (mono h1 (fun t ht => ?_))
    unfold contextTexts
    simp only [List.mem_append] at ht ⊢
    rcases ht with ht | ht
    · exact Or.inl (Or.inr ht)
    · exact Or.inr (Or.inr ht)

/-! ### Concrete cases -/

/-- The builder of the toy election after some calls. -/
def toyBuild (ops : List BuilderOp) : R (Option (InternalManifest × Context × Option (List (String × String)))) := do
  let b ← ElectionBuilder.new toyEnv 3 2 toyManifest
  (ops.foldl ElectionBuilder.step b).build toyEnv

example : (match toyBuild [.setPublicKey 1, .addExtendedDataField "a" "x", .setCommitmentHash 4, .setPublicKey 16,
      .addExtendedDataField "a" "y"] with
    | .ok (some r) => some (r.2.1.elgamalPublicKey, r.2.1.quorum, r.2.2)
    | _ => none) = some (16, 2, some [("a", "y")]) := by decide +kernel
example : (toyBuild [.setCommitmentHash 4]).toOption.map (fun o => o.isSome) = some false ∧
    (toyBuild [.setPublicKey 16]).toBool = false := by decide +kernel

end EG
