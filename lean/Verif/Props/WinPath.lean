import Verif.Spec.WinPath
import Verif.Props.Finder
/-!
# C128: Windows
-/
namespace Verif.Props
open Spec FileFinder

/-! ## The searches do not depend on the path rules other than through the candidates -/

section Generic
variable {P : Paths} {R : OsStr → String → OsStr}

/-- The candidates of one folder. -/
def rowOf (R : OsStr → String → OsStr) (base : OsStr) (exts : List String) : List (OsStr × String) := exts.map fun e => (R base e, e)

theorem withExtP_ok {base : OsStr} {e : String} (h : P.withExtension base (os e) = some (R base e)) : P.withExt base e = .ok (R base e) := by
  simp [Paths.withExt, h]

theorem findFirstExtsP_eq (b : Build) (w : World) (am : Bool) (base : OsStr) (exts : List String)
    (h : ∀ e ∈ exts, P.withExtension base (os e) = some (R base e)) :
    ∀ first, P.findFirstExts b w am base first exts = .ok (firstFlat b w am first (rowOf R base exts)) := by
  induction exts with
  | nil => intro; rfl
  | cons e exts ih =>
    intro first
    rw [Paths.findFirstExts, withExtP_ok (h e (by simp))]
    simp only [Outcome.bind_ok, rowOf, List.map_cons, firstFlat, res]
    have ih := ih (fun e' he => h e' (by simp [he]))
    split
    · rfl
    · split <;> exact ih _

theorem findFirstFoldersP_eq (b : Build) (w : World) (am : Bool) (name : String) (exts : List String)
    (h : ∀ e ∈ exts, ∀ base, P.withExtension base (os e) = some (R base e)) (folders : List OsStr) :
    ∀ first, P.findFirstFolders b w am name exts first folders =
      .ok (firstFlat b w am first (folders.flatMap fun d => rowOf R (P.join d (os name)) exts)) := by
  induction folders with
  | nil => intro; rfl
  | cons d folders ih =>
    intro first
    rw [Paths.findFirstFolders, findFirstExtsP_eq b w am _ exts (fun e he => h e he _), List.flatMap_cons, firstFlat_append, Outcome.bind_ok]
    cases firstFlat b w am first (rowOf R (P.join d (os name)) exts) with
    | ret r => rfl
    | cont first => exact ih _

theorem findLastExtsP_eq (b : Build) (w : World) (am : Bool) (base : OsStr) (exts : List String)
    (h : ∀ e ∈ exts, P.withExtension base (os e) = some (R base e)) :
    ∀ st, P.findLastExts b w am base st exts = .ok (lastFlat b w am st (rowOf R base exts)) := by
  induction exts with
  | nil => intro; rfl
  | cons e exts ih =>
    intro st
    rw [Paths.findLastExts, withExtP_ok (h e (by simp))]
    simp only [Outcome.bind_ok, rowOf, List.map_cons, lastFlat, res]
    have ih := ih (fun e' he => h e' (by simp [he]))
    split
    · exact ih _
    · split <;> exact ih _

theorem findLastFoldersP_eq (b : Build) (w : World) (am : Bool) (name : String) (exts : List String)
    (h : ∀ e ∈ exts, ∀ base, P.withExtension base (os e) = some (R base e)) (folders : List OsStr) :
    ∀ st, P.findLastFolders b w am name exts st folders =
      .ok (lastFlat b w am st (folders.flatMap fun d => rowOf R (P.join d (os name)) exts)) := by
  induction folders with
  | nil => intro; rfl
  | cons d folders ih =>
    intro st
    rw [Paths.findLastFolders, findLastExtsP_eq b w am _ exts (fun e he => h e he _), List.flatMap_cons, lastFlat_append, Outcome.bind_ok]
    exact ih _

theorem findAllExtsP_eq (b : Build) (w : World) (am : Bool) (base : OsStr) (exts : List String)
    (h : ∀ e ∈ exts, P.withExtension base (os e) = some (R base e)) :
    ∀ st, P.findAllExts b w am base st exts = numberFlat b w st ((rowOf R base exts).filter (hit w am)) := by
  induction exts with
  | nil => intro; rfl
  | cons e exts ih =>
    intro st
    rw [Paths.findAllExts, withExtP_ok (h e (by simp))]
    simp only [Outcome.bind_ok, rowOf, List.map_cons]
    have ih := ih (fun e' he => h e' (by simp [he]))
    by_cases hc : (am || w.pathExists (R base e)) = true
    · rw [if_pos hc, List.filter_cons_of_pos (by exact hc), numberFlat]; congr 1; funext i; exact ih _
    · rw [if_neg hc, List.filter_cons_of_neg (by exact hc)]; exact ih _

theorem findAllFoldersP_eq (b : Build) (w : World) (am : Bool) (name : String) (exts : List String)
    (h : ∀ e ∈ exts, ∀ base, P.withExtension base (os e) = some (R base e)) (folders : List OsStr) :
    ∀ st, P.findAllFolders b w am name exts st folders =
      numberFlat b w st ((folders.flatMap fun d => rowOf R (P.join d (os name)) exts).filter (hit w am)) := by
  induction folders with
  | nil => intro; rfl
  | cons d folders ih =>
    intro st
    rw [Paths.findAllFolders, findAllExtsP_eq b w am _ exts (fun e he => h e he _), List.flatMap_cons, List.filter_append, numberFlat_append]
    congr 1; funext st; exact ih _

theorem findAllOrFirstExtsP_eq (b : Build) (w : World) (base : OsStr) (exts : List String)
    (h : ∀ e ∈ exts, P.withExtension base (os e) = some (R base e)) :
    ∀ st, P.findAllOrFirstExts b w base st exts = aofFlat b w st (rowOf R base exts) := by
  induction exts with
  | nil => intro; rfl
  | cons e exts ih =>
    intro st
    rw [Paths.findAllOrFirstExts, withExtP_ok (h e (by simp))]
    simp only [Outcome.bind_ok, rowOf, List.map_cons, aofFlat, res]
    have ih := ih (fun e' he => h e' (by simp [he]))
    split
    · congr 1; funext i; exact ih _
    · split <;> exact ih _

theorem findAllOrFirstFoldersP_eq (b : Build) (w : World) (name : String) (exts : List String)
    (h : ∀ e ∈ exts, ∀ base, P.withExtension base (os e) = some (R base e)) (folders : List OsStr) :
    ∀ st, P.findAllOrFirstFolders b w name exts st folders =
      aofFlat b w st (folders.flatMap fun d => rowOf R (P.join d (os name)) exts) := by
  induction folders with
  | nil => intro; rfl
  | cons d folders ih =>
    intro st
    rw [Paths.findAllOrFirstFolders, findAllOrFirstExtsP_eq b w _ exts (fun e he => h e he _), List.flatMap_cons, aofFlat_append]
    congr 1; funext st; exact ih _

end Generic

theorem unix_withExt (base : OsStr) (e : String) : unixPaths.withExt base e = withExt base e := by
  unfold Paths.withExt withExt
  simp only [unixPaths]
  cases pathWithExtension base (os e) <;> rfl

theorem unix_findFirstExts (b : Build) (w : World) (am : Bool) (base : OsStr) (exts : List String) :
    ∀ st, unixPaths.findFirstExts b w am base st exts = findFirstExts b w am base st exts := by
  induction exts with
  | nil => intro st; rfl
  | cons e exts ih => intro st; simp only [Paths.findFirstExts, findFirstExts, unix_withExt, ih]

theorem unix_findFirstFolders (b : Build) (w : World) (am : Bool) (name : String) (exts : List String) (ds : List OsStr) :
    ∀ st, unixPaths.findFirstFolders b w am name exts st ds = findFirstFolders b w am name exts st ds := by
  induction ds with
  | nil => intro st; rfl
  | cons d ds ih =>
    intro st
    simp only [Paths.findFirstFolders, findFirstFolders, unix_findFirstExts]
    congr 1; funext x
    cases x
    · rfl
    · exact ih _

theorem unix_findLastExts (b : Build) (w : World) (am : Bool) (base : OsStr) (exts : List String) :
    ∀ st, unixPaths.findLastExts b w am base st exts = findLastExts b w am base st exts := by
  induction exts with
  | nil => intro st; rfl
  | cons e exts ih => intro st; simp only [Paths.findLastExts, findLastExts, unix_withExt, ih]

theorem unix_findLastFolders (b : Build) (w : World) (am : Bool) (name : String) (exts : List String) (ds : List OsStr) :
    ∀ st, unixPaths.findLastFolders b w am name exts st ds = findLastFolders b w am name exts st ds := by
  induction ds with
  | nil => intro st; rfl
  | cons d ds ih => intro st; simp only [Paths.findLastFolders, findLastFolders, unix_findLastExts, ih]; rfl

theorem unix_findAllExts (b : Build) (w : World) (am : Bool) (base : OsStr) (exts : List String) :
    ∀ st, unixPaths.findAllExts b w am base st exts = findAllExts b w am base st exts := by
  induction exts with
  | nil => intro st; rfl
  | cons e exts ih => intro st; simp only [Paths.findAllExts, findAllExts, unix_withExt, ih]

theorem unix_findAllFolders (b : Build) (w : World) (am : Bool) (name : String) (exts : List String) (ds : List OsStr) :
    ∀ st, unixPaths.findAllFolders b w am name exts st ds = findAllFolders b w am name exts st ds := by
  induction ds with
  | nil => intro st; rfl
  | cons d ds ih => intro st; simp only [Paths.findAllFolders, findAllFolders, unix_findAllExts, ih]; rfl

theorem unix_findAllOrFirstExts (b : Build) (w : World) (base : OsStr) (exts : List String) :
    ∀ st, unixPaths.findAllOrFirstExts b w base st exts = findAllOrFirstExts b w base st exts := by
  induction exts with
  | nil => intro st; rfl
  | cons e exts ih => intro st; simp only [Paths.findAllOrFirstExts, findAllOrFirstExts, unix_withExt, ih]

theorem unix_findAllOrFirstFolders (b : Build) (w : World) (name : String) (exts : List String) (ds : List OsStr) :
    ∀ st, unixPaths.findAllOrFirstFolders b w name exts st ds = findAllOrFirstFolders b w name exts st ds := by
  induction ds with
  | nil => intro st; rfl
  | cons d ds ih => intro st; simp only [Paths.findAllOrFirstFolders, findAllOrFirstFolders, unix_findAllOrFirstExts, ih]; rfl

theorem unix_findFirst (b : Build) (w : World) (f : FileFinder) (am : Bool) : unixPaths.findFirst b w f am = findFirst b w f am := by
  unfold Paths.findFirst findFirst
  congr 1; funext _
  rw [unix_findFirstFolders]
  rfl

/-- **C128.** With the path rules of Unix this is the finder, the file layer and the directory resolution of the other properties: the path rules are the only
difference. -/
theorem C128_same_code (b : Build) (fm : Formats) (w : World) (f : FileFinder) (am : Bool) (d : OSDirectory) (c : Config) (name : String) (path : OsStr)
    (dirs : List OSDirectory) :
    unixPaths.findFirst b w f am = findFirst b w f am ∧ unixPaths.findLast b w f am = findLast b w f am ∧
    unixPaths.findAll b w f am = findAll b w f am ∧ unixPaths.findAllOrFirst b w f = findAllOrFirst b w f ∧
    unixPaths.toPathBuf w d = d.toPathBuf w ∧ unixPaths.addFileLayer b fm c name path = c.addFileLayer b fm name path ∧
    unixPaths.layerFinder b w name dirs = layerFinder b w name dirs := by
  have h1 : ∀ d, unixPaths.toPathBuf w d = OSDirectory.toPathBuf w d := by
    intro d
    unfold Paths.toPathBuf OSDirectory.toPathBuf
    cases w.baseDirs <;> cases d <;> rfl
  have h : unixPaths.withOsDirectory w = FileFinder.withOsDirectory w := by
    funext f d
    unfold Paths.withOsDirectory FileFinder.withOsDirectory
    rw [h1]
    cases d.toPathBuf w <;> rfl
  refine ⟨unix_findFirst b w f am, ?_, ?_, ?_, h1 d, rfl, ?_⟩
  · unfold Paths.findLast findLast
    congr 1; funext _
    rw [unix_findLastFolders]
    rfl
  · unfold Paths.findAll findAll
    congr 1; funext _
    rw [unix_findAllFolders]
  · unfold Paths.findAllOrFirst findAllOrFirst
    congr 1; funext _
    rw [unix_findAllOrFirstFolders]
    rfl
  · simp only [Paths.layerFinder, layerFinder, h]
    exact unix_findFirst _ _ _ _

/-! ## The four searches on Windows -/

theorem mem_os (c : Char) (s : String) : OsChar.chr c ∈ os s ↔ c ∈ s.toList := by simp [os]

theorem any_winSep_os (s : String) : (os s).any winSep = true ↔ '\\' ∈ s.toList ∨ '/' ∈ s.toList := by
  simp [os, winSep]
  constructor
  · rintro ⟨c, hc, rfl | rfl⟩ <;> simp [hc]
  · rintro (h | h) <;> exact ⟨_, h, by simp⟩

/-- What `with_extension` makes of a path on Windows, for an extension without separators. -/
def winReplace (base : OsStr) (e : String) : OsStr := (winWithExtension base (os e)).getD []

theorem winReplace_eq {e : String} (he : WinExt e) (base : OsStr) : windowsPaths.withExtension base (os e) = some (winReplace base e) := by
  have : (os e).any winSep = false := by
    rw [Bool.eq_false_iff]; intro h; rcases (any_winSep_os e).1 h with h | h
    · exact he.1 h
    · exact he.2 h
  simp [windowsPaths, winReplace, winWithExtension, this]

theorem win_validate {f : FileFinder} (h : WinReady f) : f.validate = .ok () := by
  have h1 := h.folders; have h2 := h.extensions
  simp [validate, h1, h2]

theorem winCandidates_ne_nil {f : FileFinder} (h : WinReady f) : winCandidates f ≠ [] := by
  have h1 := h.folders; have h2 := h.extensions
  obtain ⟨a, l, e⟩ := List.exists_cons_of_ne_nil h1
  obtain ⟨a', l', e'⟩ := List.exists_cons_of_ne_nil h2
  simp [winCandidates, e, e']

theorem winCandidates_eq (f : FileFinder) :
    winCandidates f = f.folders.flatMap fun d => rowOf winReplace (winJoin d (os f.fileName)) f.extensions := rfl

theorem win_findFirst_eq (b : Build) (w : World) (f : FileFinder) (am : Bool) (hf : WinReady f) :
    windowsPaths.findFirst b w f am = match firstFlat b w am none (winCandidates f) with
      | .ret r => .ok r
      | .cont first => if am then
          match first with
          | some r => .ok r
          | none => .err (.fileFinderError .noFilesFound)
        else .err (.fileFinderError .noFilesFound) := by
  rw [Paths.findFirst, win_validate hf, Outcome.bind_ok, findFirstFoldersP_eq (R := winReplace) b w am _ _ (fun e he base => winReplace_eq (hf.exts e he) base), Outcome.bind_ok,
    winCandidates_eq]
  rfl

/-- **C128.** On Windows `find_first` returns the first candidate, folders before extensions, that exists; if there is none it
returns the very first candidate if missing files are allowed, and fails with `NoFilesFound` otherwise. -/
theorem C128_find_first (b : Build) (w : World) (f : FileFinder) (am : Bool) (hf : WinReady f) :
    (∀ (i : Nat) c, (winCandidates f)[i]? = some c → w.pathExists c.1 = true →
      (∀ (j : Nat) d, j < i → (winCandidates f)[j]? = some d → w.pathExists d.1 = false) →
      ∃ r, windowsPaths.findFirst b w f am = .ok r ∧ Reports b w c 0 r) ∧
    ((∀ c ∈ winCandidates f, w.pathExists c.1 = false) →
      (am = true → ∃ c r, (winCandidates f)[0]? = some c ∧ windowsPaths.findFirst b w f am = .ok r ∧ Reports b w c 0 r) ∧
      (am = false → windowsPaths.findFirst b w f am = .err (.fileFinderError .noFilesFound))) := by
  constructor
  · intro i c hi hc hn
    refine ⟨res b w c, ?_, res_reports b w c⟩
    rw [win_findFirst_eq b w f am hf, split_at hi, firstFlat_hit _ hc]
    intro x hx
    obtain ⟨j, hj, e⟩ := mem_take_get hx
    exact hn j x hj e
  · intro hn
    constructor
    · rintro rfl
      obtain ⟨c, cs, e⟩ := List.exists_cons_of_ne_nil (winCandidates_ne_nil hf)
      refine ⟨c, res b w c, by rw [e]; rfl, ?_, res_reports b w c⟩
      rw [win_findFirst_eq b w f true hf, firstFlat_miss hn]
      simp [e]
    · rintro rfl
      rw [win_findFirst_eq b w f false hf, firstFlat_miss hn]
      simp

theorem win_findLast_eq (b : Build) (w : World) (f : FileFinder) (am : Bool) (hf : WinReady f) :
    windowsPaths.findLast b w f am =
      match (lastFlat b w am (none, none) (winCandidates f)).1 with
      | some r => .ok r
      | none => if am then
          match (lastFlat b w am (none, none) (winCandidates f)).2 with
          | some r => .ok r
          | none => .err (.fileFinderError .noFilesFound)
        else .err (.fileFinderError .noFilesFound) := by
  rw [Paths.findLast, win_validate hf, Outcome.bind_ok, findLastFoldersP_eq (R := winReplace) b w am _ _ (fun e he base => winReplace_eq (hf.exts e he) base), Outcome.bind_ok,
    winCandidates_eq]
  rfl

/-- **C128.** On Windows `find_last` returns the last candidate that exists; if there is none, the very last candidate if
missing files are allowed, `NoFilesFound` otherwise. -/
theorem C128_find_last (b : Build) (w : World) (f : FileFinder) (am : Bool) (hf : WinReady f) :
    (∀ (i : Nat) c, (winCandidates f)[i]? = some c → w.pathExists c.1 = true →
      (∀ (j : Nat) d, i < j → (winCandidates f)[j]? = some d → w.pathExists d.1 = false) →
      ∃ r, windowsPaths.findLast b w f am = .ok r ∧ Reports b w c 0 r) ∧
    ((∀ c ∈ winCandidates f, w.pathExists c.1 = false) →
      (am = true → ∃ c r, (winCandidates f)[(winCandidates f).length - 1]? = some c ∧ windowsPaths.findLast b w f am = .ok r ∧
        Reports b w c 0 r) ∧
      (am = false → windowsPaths.findLast b w f am = .err (.fileFinderError .noFilesFound))) := by
  constructor
  · intro i c hi hc hn
    refine ⟨res b w c, ?_, res_reports b w c⟩
    have h : (lastFlat b w am (none, none) (winCandidates f)).1 = some (res b w c) := by
      rw [split_at hi]
      apply lastFlat_hit _ hc
      intro x hx
      obtain ⟨j, hj, e⟩ := mem_drop_get hx
      exact hn j x (by omega) e
    rw [win_findLast_eq b w f am hf, h]
  · intro hn
    constructor
    · rintro rfl
      have hne := winCandidates_ne_nil hf
      refine ⟨(winCandidates f).getLast hne, res b w ((winCandidates f).getLast hne), ?_, ?_, res_reports b w _⟩
      · rw [← List.getLast?_eq_getElem?, List.getLast?_eq_some_getLast hne]
      · rw [win_findLast_eq b w f true hf, lastFlat_miss hn]
        simp [hne, List.getLast?_eq_some_getLast hne]
    · rintro rfl
      rw [win_findLast_eq b w f false hf, lastFlat_miss hn]
      simp

theorem win_findAll_eq (b : Build) (w : World) (f : FileFinder) (am : Bool) (hf : WinReady f) :
    windowsPaths.findAll b w f am = (numberFlat b w ([], 0) ((winCandidates f).filter (hit w am)) >>= fun st =>
      if st.1.isEmpty then .err (.fileFinderError .noFilesFound) else .ok st.1) := by
  rw [Paths.findAll, win_validate hf, Outcome.bind_ok, findAllFoldersP_eq (R := winReplace) b w am _ _ (fun e he base => winReplace_eq (hf.exts e he) base), winCandidates_eq]
  rfl

/-- The candidates `find_all` is to list: those that exist, or all if missing files are allowed. -/
def winListed (w : World) (am : Bool) (f : FileFinder) : List (OsStr × String) :=
  (winCandidates f).filter fun c => am || w.pathExists c.1

/-- **C128.** On Windows `find_all` lists exactly the existing candidates (all candidates if missing files are allowed), in
order, numbered 0, 1, 2, …, as long as there are fewer than `2^16`; `NoFilesFound` exactly if there is none. -/
theorem C128_find_all (b : Build) (w : World) (f : FileFinder) (am : Bool) (hf : WinReady f)
    (hsmall : (winListed w am f).length < 65536) :
    (winListed w am f ≠ [] → ∃ rs, windowsPaths.findAll b w f am = .ok rs ∧ rs.length = (winListed w am f).length ∧
      ∀ (i : Nat) c, (winListed w am f)[i]? = some c → ∃ r, rs[i]? = some r ∧ Reports b w c i r) ∧
    (winListed w am f = [] → windowsPaths.findAll b w f am = .err (.fileFinderError .noFilesFound)) := by
  obtain ⟨j, hj⟩ := (numberFlat_cases b w (winListed w am f) [] 0 (by decide)).1 (Or.inr (by simpa using hsmall))
  have hl := lists_number b w (winListed w am f)
  have he : windowsPaths.findAll b w f am = (numberFlat b w ([], 0) (winListed w am f) >>= fun st =>
      if st.1.isEmpty then .err (.fileFinderError .noFilesFound) else .ok st.1) := win_findAll_eq b w f am hf
  rw [he, hj]
  constructor
  · intro hne
    refine ⟨_, ?_, hl.1, ?_⟩
    · simp [hne]
    · intro i c hc
      obtain ⟨r, h1, h2⟩ := hl.2 i c hc
      have := (List.getElem?_eq_some_iff.1 hc).1
      exact ⟨r, by simpa using h1, by rw [Nat.mod_eq_of_lt (by omega)] at h2; exact h2⟩
  · intro h; simp [h]

/-- **C128**, the defect: from `2^16` winListed candidates on, `find_all` panics when overflow is checked; without
overflow checks it succeeds and the numbers repeat. -/
theorem C128_index_overflow (b : Build) (w : World) (f : FileFinder) (am : Bool) (hf : WinReady f)
    (hbig : 65536 ≤ (winListed w am f).length) :
    (b.overflowChecks = true → windowsPaths.findAll b w f am = .panic) ∧
    (b.overflowChecks = false → ∃ rs, windowsPaths.findAll b w f am = .ok rs ∧ Lists b w (winListed w am f) rs) := by
  have he : windowsPaths.findAll b w f am = (numberFlat b w ([], 0) (winListed w am f) >>= fun st =>
      if st.1.isEmpty then .err (.fileFinderError .noFilesFound) else .ok st.1) := win_findAll_eq b w f am hf
  constructor
  · intro hb
    rw [he, (numberFlat_cases b w (winListed w am f) [] 0 (by decide)).2 hb (by simpa using hbig)]
    rfl
  · intro hb
    obtain ⟨j, hj⟩ := (numberFlat_cases b w (winListed w am f) [] 0 (by decide)).1 (Or.inl hb)
    have hl := lists_number b w (winListed w am f)
    have hne : winListed w am f ≠ [] := by intro h; rw [h] at hbig; simp at hbig
    refine ⟨_, ?_, hl⟩
    rw [he, hj]
    simp [hne]

/-- **C128.** On Windows `find_all_or_first` answers like `find_all(false)` if any candidate exists (also in its overflow
behaviour); otherwise it returns exactly one result, the first candidate with index 0. It never fails with
`NoFilesFound`. -/
theorem C128_find_all_or_first (b : Build) (w : World) (f : FileFinder) (hf : WinReady f) :
    ((∃ c ∈ winCandidates f, w.pathExists c.1 = true) → windowsPaths.findAllOrFirst b w f = windowsPaths.findAll b w f false) ∧
    ((∀ c ∈ winCandidates f, w.pathExists c.1 = false) →
      ∃ c r, (winCandidates f)[0]? = some c ∧ windowsPaths.findAllOrFirst b w f = .ok [r] ∧ Reports b w c 0 r) ∧
    windowsPaths.findAllOrFirst b w f ≠ .err (.fileFinderError .noFilesFound) := by
  obtain ⟨fi, h1, h2⟩ := aofFlat_files b w (winCandidates f) ⟨[], none, 0⟩
  have he : windowsPaths.findAllOrFirst b w f = (aofFlat b w ⟨[], none, 0⟩ (winCandidates f) >>= fun st =>
      if st.files.isEmpty then
        match st.first with
        | some r => .ok (st.files ++ [r.withIndex 0])
        | none => .err (.fileFinderError .noFilesFound)
      else .ok st.files) := by
    rw [Paths.findAllOrFirst, win_validate hf, Outcome.bind_ok, findAllOrFirstFoldersP_eq (R := winReplace) b w _ _ (fun e he base => winReplace_eq (hf.exts e he) base), winCandidates_eq]
    rfl
  have hx : (∃ c ∈ winCandidates f, w.pathExists c.1 = true) → windowsPaths.findAllOrFirst b w f = windowsPaths.findAll b w f false := by
    rintro ⟨c, hc, hcx⟩
    rw [he, h1, win_findAll_eq b w f false hf]
    have hmem : c ∈ (winCandidates f).filter (hit w false) := by simp [hit, hc, hcx]
    have hne : (winCandidates f).filter (hit w false) ≠ [] := List.ne_nil_of_mem hmem
    by_cases hs : b.overflowChecks = false ∨ 0 + ((winCandidates f).filter (hit w false)).length < 65536
    · obtain ⟨j, hj⟩ := (numberFlat_cases b w _ [] 0 (by decide)).1 hs
      simp only [] at hj ⊢
      rw [hj]
      simp [hne]
    · have hb : b.overflowChecks = true := by
        cases h : b.overflowChecks
        · exact absurd (Or.inl h) hs
        · rfl
      have := (numberFlat_cases b w ((winCandidates f).filter (hit w false)) [] 0 (by decide)).2 hb
        (by have := fun h => hs (Or.inr h); omega)
      simp only []
      rw [this]; rfl
  have hm : (∀ c ∈ winCandidates f, w.pathExists c.1 = false) →
      ∃ c r, (winCandidates f)[0]? = some c ∧ windowsPaths.findAllOrFirst b w f = .ok [r] ∧ Reports b w c 0 r := by
    intro hn
    obtain ⟨c, cs, e⟩ := List.exists_cons_of_ne_nil (winCandidates_ne_nil hf)
    have hnil : (winCandidates f).filter (hit w false) = [] := by
      rw [List.filter_eq_nil_iff]; intro x hx; simp [hit, hn x hx]
    refine ⟨c, (res b w c).withIndex 0, by rw [e]; rfl, ?_, rfl, rfl, rfl, rfl⟩
    rw [he, h1, hnil, h2 hn rfl, e]
    rfl
  refine ⟨hx, hm, ?_⟩
  by_cases hc : ∃ c ∈ winCandidates f, w.pathExists c.1 = true
  · rw [hx hc, win_findAll_eq b w f false hf]
    obtain ⟨c, hc, hcx⟩ := hc
    have hne : (winCandidates f).filter (hit w false) ≠ [] :=
      List.ne_nil_of_mem (a := c) (by simp [hit, hc, hcx])
    by_cases hs : b.overflowChecks = false ∨ 0 + ((winCandidates f).filter (hit w false)).length < 65536
    · obtain ⟨j, hj⟩ := (numberFlat_cases b w _ [] 0 (by decide)).1 hs
      rw [hj]; simp [hne]
    · have hb : b.overflowChecks = true := by
        cases h : b.overflowChecks
        · exact absurd (Or.inl h) hs
        · rfl
      rw [(numberFlat_cases b w ((winCandidates f).filter (hit w false)) [] 0 (by decide)).2 hb
        (by have := fun h => hs (Or.inr h); omega)]
      intro h; cases h
  · obtain ⟨c, r, -, h, -⟩ := hm (fun c hc' => by
      cases h : w.pathExists c.1
      · rfl
      · exact absurd ⟨c, hc', h⟩ hc)
    rw [h]; intro h; cases h


/-! ## Windows paths -/

theorem winSep_iff (c : OsChar) : winSep c = true ↔ Separator c := by simp [winSep, Separator]

theorem notSep_letter {c : Char} (h : c.isAlpha = true) : winSep (.chr c) = false := by
  rw [Bool.eq_false_iff, Ne, winSep_iff]
  rintro (e | e) <;> · cases e; exact absurd h (by decide)

/-- What can be the last, normal component of a Windows path. -/
structure WinName (n : OsStr) : Prop where
  ne : n ≠ []
  notDot : n ≠ [dot]
  notDots : n ≠ [dot, dot]
  noSep : ∀ x ∈ n, winSep x = false
  noDrive : ∀ a r, n = a :: .chr ':' :: r → driveLetter a = false

theorem winName_os {name : String} (h : WinPlain name) : WinName (os name) := by
  refine ⟨fun e => h.ne (os_inj e), fun e => h.notDot (os_inj e), fun e => h.notDots (os_inj e), fun x hx => ?_, fun a r e => ?_⟩
  · rw [Bool.eq_false_iff, Ne, winSep_iff]
    rintro (rfl | rfl)
    · exact h.noBackslash ((mem_os _ _).1 hx)
    · exact h.noSlash ((mem_os _ _).1 hx)
  · have hl : name.toList.map OsChar.chr = a :: .chr ':' :: r := e
    cases hn : name.toList with
    | nil => rw [hn] at hl; cases hl
    | cons c t =>
      cases t with
      | nil => rw [hn] at hl; cases hl
      | cons c' t =>
        rw [hn] at hl
        simp only [List.map_cons, List.cons.injEq, OsChar.chr.injEq] at hl
        obtain ⟨rfl, rfl, -⟩ := hl
        exact h.noDrive c t hn

theorem winPrefix_name {n : OsStr} (h : WinName n) : winPrefix n = none := by
  unfold winPrefix
  split
  · rename_i a b r
    rw [h.noSep a (by simp)]
    by_cases hb : b = .chr ':'
    · subst hb; simp [h.noDrive a r rfl]
    · simp [hb]
  · rfl

theorem winTrimRev_name {n r : OsStr} (hn : WinName n) : winTrimRev (n.reverse ++ r) = n.reverse ++ r := by
  obtain ⟨h1, h2, h3, h4, -⟩ := hn
  have hne : n.reverse ≠ [] := by simpa using h1
  obtain ⟨x, t, e⟩ := List.exists_cons_of_ne_nil hne
  have hm : ∀ y ∈ x :: t, winSep y = false := fun y hy => h4 y (by rw [← List.mem_reverse, e]; exact hy)
  rw [e, List.cons_append, winTrimRev, if_neg]
  rw [hm x (by simp)]
  cases t with
  | nil =>
    have hxd : x ≠ dot := by
      rintro rfl
      exact h2 (by have := congrArg List.reverse e; simpa using this)
    simp [hxd]
  | cons y t => simp [hm y (by simp)]

/-- The part before the name: its prefix stays the same whatever name follows, and after the prefix it is empty or ends with a separator. -/
structure GoodDir (d : OsStr) : Prop where
  pre : ∃ n, n ≤ d.length ∧ (∀ t, WinName t → winPrefixLen (d ++ t) = n) ∧ (d.drop n = [] ∨ (d.drop n).getLast?.any winSep = true)

theorem winSplit_append {d n : OsStr} (hd : GoodDir d) (hn : WinName n) : winSplitFileName (d ++ n) = some (d, n) := by
  obtain ⟨k, hk, h1, h2⟩ := hd.pre
  unfold winSplitFileName
  have hns : ∀ x ∈ n.reverse, (!winSep x) = true := by
    intro x hx; rw [List.mem_reverse] at hx; simp [hn.noSep x hx]
  have hst : ∀ x, (d.drop k).reverse.head? = some x → (!winSep x) = false := by
    intro x hx
    rw [List.head?_reverse] at hx
    rcases h2 with h | h
    · rw [h] at hx; cases hx
    · rw [hx] at h; simpa using h
  simp only [h1 n hn, List.drop_append_of_le_length hk, List.take_append_of_le_length hk, List.reverse_append, winTrimRev_name hn,
    takeWhile_append_stop _ _ _ hns hst, dropWhile_append_stop _ _ _ hns hst, List.reverse_reverse]
  rw [if_neg]
  · simp
  · rintro (h | h | h)
    · exact hn.ne h
    · exact hn.notDot h
    · exact hn.notDots h

/-- The part that `join` puts before a plain name. -/
noncomputable def winDir (folder : OsStr) : OsStr := open Classical in if Open folder then folder else folder ++ os "\\"

theorem winOpen_iff (folder : OsStr) : Open folder ↔ (folder = [] ∨ folder.getLast?.any winSep = true ∨ winPrefix folder = some (folder.length, true)) := by
  constructor
  · rintro (h | ⟨d, c, hc, rfl⟩ | ⟨c, hc, rfl⟩)
    · exact Or.inl h
    · right; left; simp [(winSep_iff c).2 hc]
    · right; right
      simp [winPrefix, notSep_letter hc, driveLetter, hc]
  · rintro (h | h | h)
    · exact Or.inl h
    · right; left
      cases hl : folder.getLast? with
      | none => rw [hl] at h; simp at h
      | some c =>
        rw [hl] at h
        obtain ⟨d, rfl⟩ := List.getLast?_eq_some_iff.1 hl
        exact ⟨d, c, (winSep_iff c).1 (by simpa using h), rfl⟩
    · right; right
      unfold winPrefix at h
      split at h
      · rename_i a b r
        split at h
        · simp only [] at h
          split at h <;> simp at h
        · split at h
          · rename_i hc
            simp only [Bool.and_eq_true, decide_eq_true_eq] at hc
            obtain ⟨h1, rfl⟩ := hc
            simp at h
            subst h
            cases a with
            | chr c => exact ⟨c, h1, rfl⟩
            | raw n => cases h1
          · cases h
      · cases h

theorem winJoin_name {folder n : OsStr} (hn : WinName n) : winJoin folder n = winDir folder ++ n := by
  unfold winJoin winDir
  have h2 : n.head?.any winSep = false := by
    cases n with
    | nil => rfl
    | cons x t => simp [hn.noSep x (by simp)]
  rw [winPrefix_name hn, h2]
  simp only [Option.isSome_none, Bool.false_eq_true, if_false]
  by_cases ho : Open folder
  · rw [if_pos ((winOpen_iff folder).1 ho), if_pos ho]
  · rw [if_neg (fun h => ho ((winOpen_iff folder).2 h)), if_neg ho]
    simp [os]

/-- **C128.** Joining on Windows: a plain name goes below the folder, with a backslash between unless the folder is empty, ends with a separator or is just a drive. -/
theorem C128_join (folder : OsStr) (name : String) (hn : WinPlain name) : WinInside folder name (winJoin folder (os name)) := by
  rw [winJoin_name (winName_os hn)]
  unfold winDir
  exact ⟨fun h => by rw [if_pos h], fun h => by rw [if_neg h]⟩

theorem notDrive_sep {c : OsChar} (h : winSep c = true) : driveLetter c = false := by
  rcases (winSep_iff c).1 h with rfl | rfl <;> rfl

theorem goodDir_local {d : OsStr} (h1 : Open d) (h2 : ∀ a b r, d = a :: b :: r → ¬ (winSep a = true ∧ winSep b = true)) : GoodDir d := by
  match d, h1, h2 with
  | [], _, _ => exact ⟨0, by simp, fun t ht => by simp [winPrefixLen, winPrefix_name ht], by simp⟩
  | [x], h1, _ =>
    have hx : winSep x = true := by
      rcases (winOpen_iff _).1 h1 with h | h | h
      · cases h
      · simpa using h
      · simp [winPrefix] at h
    refine ⟨0, by simp, fun t ht => ?_, by simp [hx]⟩
    obtain ⟨y, t, rfl⟩ := List.exists_cons_of_ne_nil ht.ne
    simp [winPrefixLen, winPrefix, ht.noSep y (by simp), notDrive_sep hx]
  | a :: b :: r, h1, h2 =>
    have hab : (winSep a && winSep b) = false := by
      rw [Bool.eq_false_iff, Ne, Bool.and_eq_true]; exact h2 a b r rfl
    by_cases hdr : (driveLetter a && decide (b = .chr ':')) = true
    · refine ⟨2, by simp, fun t _ => by simp only [List.cons_append, winPrefixLen, winPrefix, hab, hdr]; rfl, ?_⟩
      cases r with
      | nil => simp
      | cons x r =>
        right
        rcases (winOpen_iff _).1 h1 with h | h | h
        · cases h
        · simpa using h
        · simp only [winPrefix, hab, hdr] at h; simp at h
    · refine ⟨0, by simp, fun t _ => by simp only [List.cons_append, winPrefixLen, winPrefix, hab, hdr]; rfl, ?_⟩
      right
      rcases (winOpen_iff _).1 h1 with h | h | h
      · cases h
      · simpa using h
      · simp only [winPrefix, hab, hdr] at h; simp at h

theorem goodDir_share {a b c : OsChar} {server share rest : OsStr} (ha : winSep a = true) (hb : winSep b = true) (hc : winSep c = true)
    (h1 : server ≠ []) (h2 : share ≠ []) (h3 : ∀ x ∈ server ++ share, winSep x = false) (h4 : ∃ x r, rest = x :: r ∧ winSep x = true)
    (h5 : rest.getLast?.any winSep = true) : GoodDir (a :: b :: server ++ c :: share ++ rest) := by
  obtain ⟨x, r, rfl, hx⟩ := h4
  refine ⟨2 + server.length + 1 + share.length, by simp; omega, fun t _ => ?_, Or.inr ?_⟩
  · have e1 : (server ++ (c :: (share ++ (x :: (r ++ t))))).takeWhile (fun c => !winSep c) = server :=
      takeWhile_append_stop _ _ _ (fun y hy => by simp [h3 y (by simp [hy])]) (fun y hy => by simp at hy; subst hy; simp [hc])
    have e2 : (server ++ (c :: (share ++ (x :: (r ++ t))))).dropWhile (fun c => !winSep c) = c :: (share ++ (x :: (r ++ t))) :=
      dropWhile_append_stop _ _ _ (fun y hy => by simp [h3 y (by simp [hy])]) (fun y hy => by simp at hy; subst hy; simp [hc])
    have e3 : (share ++ (x :: (r ++ t))).takeWhile (fun c => !winSep c) = share :=
      takeWhile_append_stop _ _ _ (fun y hy => by simp [h3 y (by simp [hy])]) (fun y hy => by simp at hy; subst hy; simp [hx])
    have e : a :: b :: server ++ c :: share ++ x :: r ++ t = a :: b :: (server ++ (c :: (share ++ (x :: (r ++ t))))) := by simp
    rw [e]
    simp only [winPrefixLen, winPrefix, ha, hb, e1, e2, e3, List.drop_succ_cons, List.drop_zero]
    simp [h1, h2]
  · have e : a :: b :: server ++ c :: share ++ x :: r = (a :: b :: server ++ c :: share) ++ x :: r := rfl
    have hl : (a :: b :: server ++ c :: share).length = 2 + server.length + 1 + share.length := by simp; omega
    rw [e, ← hl, List.drop_left]
    exact h5

theorem goodDir_winDir {folder : OsStr} (hf : Finished folder) : GoodDir (winDir folder) := by
  have hb : winSep (.chr '\\') = true := by decide
  rcases hf with hf | ⟨a, b, c, server, share, rest, rfl, ha, hb', hc, h1, h2, h3, h4⟩
  · have hno : ∀ a b r, folder = a :: b :: r → ¬ (winSep a = true ∧ winSep b = true) := fun a b r e h =>
      hf a b r e ⟨(winSep_iff a).1 h.1, (winSep_iff b).1 h.2⟩
    by_cases ho : Open folder
    · unfold winDir; rw [if_pos ho]; exact goodDir_local ho hno
    · unfold winDir; rw [if_neg ho]
      refine goodDir_local (Or.inr (Or.inl ⟨folder, .chr '\\', Or.inl rfl, rfl⟩)) fun a b r e h => ?_
      match folder, e with
      | [], _ => exact ho (Or.inl rfl)
      | [x], e =>
        have : x = a := by simp at e; exact e.1
        subst this
        exact ho (Or.inr (Or.inl ⟨[], x, (winSep_iff x).1 h.1, rfl⟩))
      | x :: y :: t, e =>
        have : x = a ∧ y = b := by simp at e; exact ⟨e.1, e.2.1⟩
        obtain ⟨rfl, rfl⟩ := this
        exact hno x y t rfl h
  · have ha' := (winSep_iff a).2 ha
    have hb2 := (winSep_iff b).2 hb'
    have hc' := (winSep_iff c).2 hc
    have h3' : ∀ x ∈ server ++ share, winSep x = false := fun x hx => by
      rw [Bool.eq_false_iff, Ne, winSep_iff]; exact h3 x hx
    by_cases ho : Open (a :: b :: server ++ c :: share ++ rest)
    · unfold winDir; rw [if_pos ho]
      rcases (winOpen_iff _).1 ho with h | h | h
      · simp at h
      · cases rest with
        | nil =>
          obtain ⟨y, hy⟩ := Option.ne_none_iff_exists'.1 (mt List.getLast?_eq_none_iff.1 h2)
          have hmem : y ∈ share := List.mem_of_getLast? hy
          have : (a :: b :: server ++ c :: share ++ []).getLast? = some y := by
            have e : a :: b :: server ++ c :: share ++ [] = (a :: b :: server ++ [c]) ++ share := by simp
            rw [e, List.getLast?_append, hy]; rfl
          rw [this] at h
          simp [h3' y (by simp [hmem])] at h
        | cons x r =>
          refine goodDir_share ha' hb2 hc' h1 h2 h3' ⟨x, r, rfl, (winSep_iff x).2 (h4 x rfl)⟩ ?_
          rw [List.getLast?_append] at h
          cases hl : (x :: r).getLast? with
          | none => simp at hl
          | some z => rw [hl] at h; simpa using h
      · have : winPrefix (a :: b :: server ++ c :: share ++ rest) ≠ some ((a :: b :: server ++ c :: share ++ rest).length, true) := by
          simp only [List.cons_append, winPrefix, ha', hb2]
          simp only [Bool.and_self, if_true]
          split <;> simp
        exact absurd h this
    · unfold winDir; rw [if_neg ho]
      have e : a :: b :: server ++ c :: share ++ rest ++ os "\\" = a :: b :: server ++ c :: share ++ (rest ++ os "\\") := by simp
      rw [e]
      refine goodDir_share ha' hb2 hc' h1 h2 h3' ?_ (by simp [os, hb])
      cases rest with
      | nil => exact ⟨.chr '\\', [], rfl, hb⟩
      | cons x r => exact ⟨x, r ++ os "\\", rfl, (winSep_iff x).2 (h4 x rfl)⟩

theorem winSplit_join {folder : OsStr} {name : String} (hf : Finished folder) (h : WinPlain name) :
    winSplitFileName (winJoin folder (os name)) = some (winDir folder, os name) := by
  rw [winJoin_name (winName_os h), winSplit_append (goodDir_winDir hf) (winName_os h)]

end Verif.Props
