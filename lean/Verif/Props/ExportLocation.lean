import Verif.Spec.ExportLocation

/-!
# C122: an exported record is where the user asked for it
-/

namespace EG

theorem takeWhile_name {dir name : List Char} (hd : dir = [] ∨ ∃ d, dir = d ++ ['/']) (hn : '/' ∉ name) :
    (dir ++ name).reverse.takeWhile (· != '/') = name.reverse ∧ (dir ++ name).reverse.dropWhile (· != '/') = dir.reverse := by
  have hall : ∀ c ∈ name.reverse, (c != '/') = true := by
    intro c hc
    rw [List.mem_reverse] at hc
    simp only [bne_iff_ne, ne_eq]
    rintro rfl
    exact hn hc
  rw [List.reverse_append, List.takeWhile_append_of_pos hall, List.dropWhile_append_of_pos hall]
  rcases hd with rfl | ⟨d, rfl⟩
  · simp
  · rw [List.reverse_append]
    simp

theorem bne_all {c : Char} {l : List Char} (h : c ∉ l) : ∀ x ∈ l.reverse, (x != c) = true := by
  intro x hx
  rw [List.mem_reverse] at hx
  simp only [bne_iff_ne, ne_eq]
  rintro rfl
  exact h hx

/-- What `splitext` leaves of a path to a file with a dot in its name. -/
theorem splitextRoot_ext {p dir stem ext : List Char} (h : PathTo p dir (stem ++ '.' :: ext)) (he : '.' ∉ ext) :
    splitextRoot p = if stem.any (· != '.') then dir ++ stem else p := by
  obtain ⟨h1, h2⟩ := takeWhile_name h.dir h.name
  unfold splitextRoot
  rw [h.eq, h1, h2, List.reverse_append, List.reverse_cons, List.append_assoc, List.dropWhile_append_of_pos (bne_all he)]
  simp [List.any_reverse]

/-- and of one without. -/
theorem splitextRoot_plain {p dir name : List Char} (h : PathTo p dir name) (he : '.' ∉ name) : splitextRoot p = p := by
  obtain ⟨h1, h2⟩ := takeWhile_name h.dir h.name
  unfold splitextRoot
  have hd : name.reverse.dropWhile (· != '.') = [] := by
    have := List.dropWhile_append_of_pos (l₂ := []) (bne_all he)
    simpa using this
  rw [h.eq, h1, h2, hd]

theorem last_of {c : Char} {l : List Char} (h : c ∈ l) : ∃ a b, l = a ++ c :: b ∧ c ∉ b := by
  obtain ⟨a, b, he, hn⟩ := List.eq_append_cons_of_mem (List.mem_reverse.2 h)
  refine ⟨b.reverse, a.reverse, ?_, by simpa using hn⟩
  have := congrArg List.reverse he
  rw [List.reverse_reverse, List.reverse_append, List.reverse_cons] at this
  rw [this]; simp

theorem path_exists (p : List Char) : ∃ dir name, PathTo p dir name := by
  by_cases h : '/' ∈ p
  · obtain ⟨a, b, rfl, hn⟩ := last_of h
    exact ⟨a ++ ['/'], b, by simp, Or.inr ⟨a, rfl⟩, hn⟩
  · exact ⟨[], p, rfl, Or.inl rfl, h⟩

theorem zip_text : ".zip".toList = '.' :: ['z', 'i', 'p'] := by decide

/-- C122 The archive of a record is written to the very place that was asked for exactly when that is the path of a zip file, with a name before ".zip".
Partial: for other places the archive is put elsewhere (`C122_elsewhere_fails`). -/
theorem C122_archive_partial (p dir name : List Char) (h : PathTo p dir name) : exportArchive p = p ↔ ZipName name := by
  unfold exportArchive
  constructor
  · intro he
    have hne : splitextRoot p ≠ p := by
      intro h'
      rw [h'] at he
      have := congrArg List.length he
      simp [zip_text] at this
    by_cases hd : '.' ∈ name
    · obtain ⟨stem, ext, rfl, hext⟩ := last_of hd
      have hs := splitextRoot_ext h hext
      by_cases ha : stem.any (· != '.') = true
      · rw [if_pos ha] at hs
        rw [hs, h.eq, List.append_assoc] at he
        have he' := List.append_cancel_left (List.append_cancel_left he)
        obtain ⟨c, hc, hcne⟩ := List.any_eq_true.1 ha
        exact ⟨stem, by rw [he'], c, hc, by simpa using hcne⟩
      · rw [if_neg ha] at hs
        exact absurd hs hne
    · exact absurd (splitextRoot_plain h hd) hne
  · rintro ⟨stem, rfl, c, hc, hcne⟩
    rw [zip_text] at h ⊢
    have hs := splitextRoot_ext h (by decide)
    rw [if_pos (List.any_eq_true.2 ⟨c, hc, by simpa using hcne⟩)] at hs
    rw [hs, h.eq, List.append_assoc]

/-- C122 Otherwise it is the place with the last ending of the file name replaced, or with ".zip" added if there is no ending; so it is always a zip file in the
directory that was asked for. -/
theorem C122_archive_place (p dir name : List Char) (h : PathTo p dir name) : ∃ stem, exportArchive p = dir ++ stem ++ ".zip".toList ∧
    ((stem = name ∧ ∀ a b, name = a ++ '.' :: b → ('.' ∉ b) → ∀ c ∈ a, c = '.') ∨
      ∃ ext, name = stem ++ '.' :: ext ∧ '.' ∉ ext ∧ ∃ c ∈ stem, c ≠ '.') := by
  unfold exportArchive
  by_cases hd : '.' ∈ name
  · obtain ⟨stem, ext, rfl, hext⟩ := last_of hd
    have hs := splitextRoot_ext h hext
    by_cases ha : stem.any (· != '.') = true
    · rw [if_pos ha] at hs
      obtain ⟨c, hc, hcne⟩ := List.any_eq_true.1 ha
      exact ⟨stem, by rw [hs], Or.inr ⟨ext, rfl, hext, c, hc, by simpa using hcne⟩⟩
    · rw [if_neg ha] at hs
      refine ⟨stem ++ '.' :: ext, by rw [hs, h.eq], Or.inl ⟨rfl, ?_⟩⟩
      intro a b hab hb c hc
      have hs' := splitextRoot_ext (hab ▸ h) hb
      rw [hs] at hs'
      refine Classical.byContradiction fun hne => ?_
      rw [if_pos (List.any_eq_true.2 ⟨c, hc, by simpa using hne⟩), h.eq, hab] at hs'
      have := congrArg List.length hs'
      simp at this
  · refine ⟨name, by rw [splitextRoot_plain h hd, h.eq], Or.inl ⟨rfl, ?_⟩⟩
    rintro a b rfl
    exact absurd (by simp) hd

/-- C122 The finding: a record that is exported to `record.json` replaces the one that was exported to `record.zip` next to it; and for `.zip` the archive has another name. -/
theorem C122_elsewhere_fails (dir : List Char) (hd : dir = [] ∨ ∃ d, dir = d ++ ['/']) :
    exportArchive (dir ++ "record.json".toList) = dir ++ "record.zip".toList ∧
    exportArchive (dir ++ "record.zip".toList) = dir ++ "record.zip".toList ∧
    exportArchive (dir ++ ".zip".toList) = dir ++ ".zip.zip".toList := by
  have e : ∀ stem ext : List Char, '/' ∉ stem ++ '.' :: ext → '.' ∉ ext → splitextRoot (dir ++ (stem ++ '.' :: ext)) =
      if stem.any (· != '.') then dir ++ stem else dir ++ (stem ++ '.' :: ext) := fun stem ext hs he => splitextRoot_ext ⟨rfl, hd, hs⟩ he
  have e1 := e "record".toList "json".toList (by decide) (by decide)
  have e2 := e "record".toList "zip".toList (by decide) (by decide)
  have e3 := e [] "zip".toList (by decide) (by decide)
  rw [if_pos (by decide)] at e1 e2
  rw [if_neg (by decide)] at e3
  unfold exportArchive
  rw [show "record.json".toList = "record".toList ++ '.' :: "json".toList by decide, e1,
    show "record.zip".toList = "record".toList ++ '.' :: "zip".toList by decide, e2]
  refine ⟨?_, ?_, ?_⟩
  · rw [List.append_assoc]; congr 1
  · rw [List.append_assoc]; congr 1
  · rw [show dir ++ ".zip".toList = dir ++ ([] ++ '.' :: "zip".toList) by congr 1, e3, List.append_assoc]; congr 1

/-! ### The places that are offered -/

theorem osPathJoin_file (a b : List Char) (hb : b ≠ [] ∧ '/' ∉ b) : ∃ dir, osPathJoin a b = dir ++ b ∧ PathTo (osPathJoin a b) dir b ∧
    (dir = a ∨ dir = a ++ ['/']) := by
  unfold osPathJoin
  split
  · exact absurd (by simp) hb.2
  · split
    · rename_i h
      rw [List.getLast?_eq_none_iff] at h
      exact ⟨[], rfl, ⟨rfl, Or.inl rfl, hb.2⟩, Or.inl h.symm⟩
    · rename_i h
      obtain ⟨d, rfl⟩ := List.getLast?_eq_some_iff.1 h
      exact ⟨d ++ ['/'], rfl, ⟨rfl, Or.inr ⟨d, rfl⟩, hb.2⟩, Or.inl rfl⟩
    · exact ⟨a ++ ['/'], by simp, ⟨by simp, Or.inr ⟨a, rfl⟩, hb.2⟩, Or.inr rfl⟩

/-- C122 Some place is offered, and a record that is exported to any place on offer is there, under the name that was shown. -/
theorem C122_offered (inDocker : Bool) (cwd : List Char) : recordLocations inDocker cwd ≠ [] ∧
    ∀ p ∈ recordLocations inDocker cwd, exportArchive p = p ∧ ∃ dir, PathTo p dir "publish-election.zip".toList := by
  refine ⟨by simp [recordLocations, exportLocations], ?_⟩
  intro p hp
  obtain ⟨l, -, rfl⟩ := List.mem_map.1 hp
  obtain ⟨dir, -, h, -⟩ := osPathJoin_file l "publish-election.zip".toList (by decide)
  exact ⟨(C122_archive_partial _ _ _ h).2 ⟨"publish-election".toList, by decide, 'p', by decide, by decide⟩, dir, h⟩

/-- C122 It is in the directory that Docker mounts, if there is one, and below the working directory otherwise; packages are offered next to records. -/
theorem C122_places (cwd : List Char) :
    recordLocations true cwd = ["/egui_mnt/export/publish-election.zip".toList] ∧ packageLocations true cwd = ["/egui_mnt/export/artifacts".toList] ∧
    ∃ base, (base = cwd ∨ base = cwd ++ ['/']) ∧ recordLocations false cwd = [base ++ "egui_mnt/export/publish-election.zip".toList] ∧
      packageLocations false cwd = [base ++ "egui_mnt/export/artifacts".toList] := by
  refine ⟨?_, ?_, ?_⟩
  · rw [show recordLocations true cwd = recordLocations true [] from rfl]; decide
  · rw [show packageLocations true cwd = packageLocations true [] from rfl]; decide
  obtain ⟨base, h1, -, h3⟩ := osPathJoin_file cwd "egui_mnt".toList (by decide)
  have j : ∀ (x y z : List Char), y.getLast? ≠ some '/' → y ≠ [] → z.head? ≠ some '/' → osPathJoin (x ++ y) z = x ++ (y ++ '/' :: z) := by
    intro x y z hy hy0 hz
    unfold osPathJoin
    split
    · exact absurd rfl hz
    · have hl : (x ++ y).getLast? = y.getLast? := by
        rw [List.getLast?_append]
        cases hh : y.getLast? with
        | none => exact absurd (List.getLast?_eq_none_iff.1 hh) hy0
        | some a => rfl
      rw [hl]
      split
      · rename_i h; exact absurd (List.getLast?_eq_none_iff.1 h) hy0
      · rename_i h; exact absurd h hy
      · rw [List.append_assoc]
  have he : exportDir false cwd = base ++ "egui_mnt/export".toList := by
    unfold exportDir eguiMntDir
    rw [if_neg (by decide), h1, j _ _ _ (by decide) (by decide) (by decide)]
    congr 1
  refine ⟨base, h3, ?_, ?_⟩
  · unfold recordLocations exportLocations
    rw [he, List.map_singleton, j _ _ _ (by decide) (by decide) (by decide)]
    congr 2
  · unfold packageLocations exportLocations
    rw [he, List.map_singleton, j _ _ _ (by decide) (by decide) (by decide)]
    congr 2

example : PathTo "/home/a.b/record.zip".toList "/home/a.b/".toList "record.zip".toList ∧ ZipName "record.zip".toList ∧ ¬ ZipName "record".toList ∧
    exportArchive "/home/a.b/record".toList = "/home/a.b/record.zip".toList ∧
    recordLocations false "/home".toList = ["/home/egui_mnt/export/publish-election.zip".toList] := by
  have hp : PathTo "record".toList [] "record".toList := ⟨rfl, Or.inl rfl, by decide⟩
  refine ⟨⟨by decide, Or.inr ⟨"/home/a.b".toList, by decide⟩, by decide⟩, ⟨"record".toList, by decide, 'r', by decide, by decide⟩, ?_, by decide, by decide⟩
  rw [← C122_archive_partial _ _ _ hp]
  decide

end EG
