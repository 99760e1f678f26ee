import Verif.Model.DataStore
import Verif.Lemmas.Dict

/-!
# C54: the data store is a map

The specification is the type `String → Option α` of partial maps with the usual update, and `StoreOp` the
operations a user may perform.  The property is proved except for membership in, and comparison of, read-only
views, where it is false (`_fails` theorems); hence the suffix `_partial`.
-/

namespace EG

/-- Specification: the mutating operations on a data store. -/
inductive StoreOp (α : Type)
  | set (k : String) (v : α)
  | pop (k : String)
  | clear

/-- Specification: the effect of an operation on a partial map. -/
def StoreOp.onMap {α : Type} (m : String → Option α) : StoreOp α → String → Option α
  | .set k v => fun x => if x = k then some v else m x
  | .pop k => fun x => if x = k then none else m x
  | .clear => fun _ => none

/-- The effect of an operation on the modelled store. -/
def StoreOp.run {α : Type} (s : Store α) : StoreOp α → Store α
  | .set k v => s.set k v
  | .pop k => (s.pop k).2
  | .clear => s.clear

private theorem StoreOp.run_get {α : Type} (s : Store α) (o : StoreOp α) (k : String) :
    (o.run s).get k = o.onMap s.get k := by
  cases o with
  | set k' v =>
    show dget (dset s k' v) k = if k = k' then some v else dget s k
    rw [dget_dset]
    by_cases h : k' = k
    · simp [h]
    · have : ¬ k = k' := fun hc => h hc.symm
      simp [h, this]
  | pop k' =>
    show dget (Store.pop s k').2 k = if k = k' then none else dget s k
    unfold Store.pop
    cases hd : dget s k' with
    | none =>
      by_cases h : k = k'
      · subst h; simp [hd]
      · simp [h]
    | some v =>
      show dget (ddel s k') k = _
      rw [dget_ddel]
      by_cases h : k' = k
      · simp [h]
      · have : ¬ k = k' := fun hc => h hc.symm
        simp [h, this]
  | clear => rfl

private theorem StoreOp.run_nodup {α : Type} (s : Store α) (o : StoreOp α) (h : (dkeys s).Nodup) :
    (dkeys (o.run s)).Nodup := by
  cases o with
  | set k v => exact dset_nodup h k v
  | pop k =>
    show (dkeys (Store.pop s k).2).Nodup
    unfold Store.pop
    cases dget s k with
    | none => exact h
    | some v => exact ddel_nodup h k
  | clear => exact List.nodup_nil

/-- C54: after any sequence of operations `get` returns what the abstract map holds. -/
theorem C54_get_partial {α : Type} (ops : List (StoreOp α)) (k : String) :
    (ops.foldl StoreOp.run ([] : Store α)).get k = (ops.foldl StoreOp.onMap (fun _ => none)) k := by
  have gen : ∀ (s : Store α) (m : String → Option α), (∀ k, s.get k = m k) →
      ∀ k, (ops.foldl StoreOp.run s).get k = (ops.foldl StoreOp.onMap m) k := by
    induction ops with
    | nil => intro s m h k; exact h k
    | cons o ops ih =>
      intro s m h k
      apply ih
      intro k'
      rw [StoreOp.run_get, show s.get = m from funext h]
  exact gen [] _ (fun _ => rfl) k

/-- C54: `pop` returns what the abstract map held. -/
theorem C54_pop_partial {α : Type} (ops : List (StoreOp α)) (k : String) :
    ((ops.foldl StoreOp.run ([] : Store α)).pop k).1 = (ops.foldl StoreOp.onMap (fun _ => none)) k := by
  rw [← C54_get_partial]
  unfold Store.pop Store.get
  cases h : dget (ops.foldl StoreOp.run ([] : Store α)) k <;> rfl

/-- C54: iteration (also through the read-only view) yields each key of the abstract map exactly once, with its
value; `all` yields the values and `len` is the number of keys. -/
theorem C54_iter_len_partial {α : Type} (ops : List (StoreOp α)) :
    let s := ops.foldl StoreOp.run ([] : Store α)
    let m := ops.foldl StoreOp.onMap (fun _ => none)
    ((roIter s).map Prod.fst).Nodup ∧ (∀ k v, (k, v) ∈ roIter s ↔ m k = some v) ∧
      s.all = (roIter s).map Prod.snd ∧ s.len = (roIter s).length ∧ roLen s = s.len := by
  intro s m
  have hn : (dkeys s).Nodup := by
    have gen : ∀ (ops : List (StoreOp α)) (s : Store α), (dkeys s).Nodup →
        (dkeys (ops.foldl StoreOp.run s)).Nodup := by
      intro ops
      induction ops with
      | nil => intro s h; exact h
      | cons o ops ih => intro s h; exact ih _ (StoreOp.run_nodup s o h)
    exact gen ops [] List.nodup_nil
  refine ⟨hn, ?_, rfl, rfl, rfl⟩
  intro k v
  have hg : s.get k = m k := C54_get_partial ops k
  rw [← hg]
  exact ⟨fun h => dget_of_mem hn h, fun h => mem_of_dget h⟩

/-- C54: reading through the read-only view returns what was stored. -/
theorem C54_view_get_partial {α : Type} (ops : List (StoreOp α)) (k : String) :
    roGetItem (ops.foldl StoreOp.run ([] : Store α)) k = .ok ((ops.foldl StoreOp.onMap (fun _ => none)) k) := by
  unfold roGetItem
  rw [C54_get_partial]

example : (([StoreOp.set "a" 1, .set "b" 2, .pop "a", .set "b" 3].foldl StoreOp.run
    ([] : Store Nat))).get "b" = some 3 := by decide

/-- C54 fails for the read-only view: membership is reported for every key, also one never stored. -/
theorem C54_view_membership_fails : ∃ (s : Store Nat) (k : String), s.get k = none ∧ roContains s k = true :=
  ⟨[], "a", rfl, rfl⟩

/-- C54 fails for the read-only view, in general: membership holds for every store and key. -/
theorem C54_view_membership_always_fails {α : Type} (s : Store α) (k : String) : roContains s k = true := rfl

/-- C54 fails for the read-only view: comparing two views never returns, at any recursion depth. -/
theorem C54_view_equality_fails {α : Type} (s s' : Store α) (depth : Nat) :
    roEq s s' depth = .error .recursion := by
  induction depth with
  | zero => rfl
  | succ n ih => exact ih

end EG
