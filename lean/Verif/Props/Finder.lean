import Verif.Lemmas.Finder
import Verif.Lemmas.Path
/-!
# C45–C53: the file finder
-/
namespace Verif.Props
open Spec FileFinder

theorem res_reports (b : Build) (w : World) (c : OsStr × String) : Reports b w c 0 (res b w c) :=
  ⟨rfl, rfl, rfl, rfl⟩

theorem split_at {α : Type} {l : List α} {i : Nat} {c : α} (h : l[i]? = some c) :
    l = l.take i ++ c :: l.drop (i + 1) := by
  obtain ⟨hi, e⟩ := List.getElem?_eq_some_iff.1 h
  rw [← e, List.getElem_cons_drop, List.take_append_drop]

theorem mem_take_get {α : Type} {l : List α} {i : Nat} {x : α} (h : x ∈ l.take i) :
    ∃ j, j < i ∧ l[j]? = some x := by
  obtain ⟨j, hj⟩ := List.mem_iff_getElem?.1 h
  rw [List.getElem?_take] at hj
  split at hj
  · exact ⟨j, by assumption, hj⟩
  · cases hj

theorem mem_drop_get {α : Type} {l : List α} {i : Nat} {x : α} (h : x ∈ l.drop i) :
    ∃ j, i ≤ j ∧ l[j]? = some x := by
  obtain ⟨j, hj⟩ := List.mem_iff_getElem?.1 h
  rw [List.getElem?_drop] at hj
  exact ⟨i + j, by omega, hj⟩

/-- A concrete world and finder, for the examples: `/b/conf.json` exists, everything else does not. -/
def exWorld : World where
  locate p := if p = os "/b/conf.json" then 1 else 0
  disk n := if n = 1 then .file [] none none else .absent none
  room _ := none
  env := []
  baseDirs := none
  cwd := none
def exFinder : FileFinder := ((((FileFinder.new "conf").withToml).withJson).withFolder (os "/a")).withFolder (os "/b")
def exBuild : Build := ⟨true, true, true⟩

theorem exFinder_ready : Ready exFinder := ⟨by decide, by decide, by decide⟩
example : candidates exFinder = [(os "/a/conf.toml", "toml"), (os "/a/conf.json", "json"),
    (os "/b/conf.toml", "toml"), (os "/b/conf.json", "json")] := by decide

/-! ## C45 -/

theorem findFirst_eq (b : Build) (w : World) (f : FileFinder) (am : Bool) (hf : Ready f) :
    findFirst b w f am = match firstFlat b w am none (candidates f) with
      | .ret r => .ok r
      | .cont first => if am then
          match first with
          | some r => .ok r
          | none => .err (.fileFinderError .noFilesFound)
        else .err (.fileFinderError .noFilesFound) := by
  rw [findFirst, validate_ready hf, Outcome.bind_ok, findFirstFolders_eq b w am _ _ hf.noSep, Outcome.bind_ok,
    candidates_eq]
  rfl

/-- **C45.** `find_first` returns the first candidate, folders before extensions, that exists; if there is none it
returns the very first candidate if missing files are allowed, and fails with `NoFilesFound` otherwise. -/
theorem C45_find_first (b : Build) (w : World) (f : FileFinder) (am : Bool) (hf : Ready f) :
    (∀ (i : Nat) c, (candidates f)[i]? = some c → w.pathExists c.1 = true →
      (∀ (j : Nat) d, j < i → (candidates f)[j]? = some d → w.pathExists d.1 = false) →
      ∃ r, findFirst b w f am = .ok r ∧ Reports b w c 0 r) ∧
    ((∀ c ∈ candidates f, w.pathExists c.1 = false) →
      (am = true → ∃ c r, (candidates f)[0]? = some c ∧ findFirst b w f am = .ok r ∧ Reports b w c 0 r) ∧
      (am = false → findFirst b w f am = .err (.fileFinderError .noFilesFound))) := by
  constructor
  · intro i c hi hc hn
    refine ⟨res b w c, ?_, res_reports b w c⟩
    rw [findFirst_eq b w f am hf, split_at hi, firstFlat_hit _ hc]
    intro x hx
    obtain ⟨j, hj, e⟩ := mem_take_get hx
    exact hn j x hj e
  · intro hn
    constructor
    · rintro rfl
      obtain ⟨c, cs, e⟩ := List.exists_cons_of_ne_nil (candidates_ne_nil hf)
      refine ⟨c, res b w c, by rw [e]; rfl, ?_, res_reports b w c⟩
      rw [findFirst_eq b w f true hf, firstFlat_miss hn]
      simp [e]
    · rintro rfl
      rw [findFirst_eq b w f false hf, firstFlat_miss hn]
      simp

example : ∃ r, findFirst exBuild exWorld exFinder false = .ok r ∧ r.path = os "/b/conf.json" :=
  ⟨_, rfl, by decide⟩

/-! ## C46 -/

theorem findLast_eq (b : Build) (w : World) (f : FileFinder) (am : Bool) (hf : Ready f) :
    findLast b w f am =
      match (lastFlat b w am (none, none) (candidates f)).1 with
      | some r => .ok r
      | none => if am then
          match (lastFlat b w am (none, none) (candidates f)).2 with
          | some r => .ok r
          | none => .err (.fileFinderError .noFilesFound)
        else .err (.fileFinderError .noFilesFound) := by
  rw [findLast, validate_ready hf, Outcome.bind_ok, findLastFolders_eq b w am _ _ hf.noSep, Outcome.bind_ok,
    candidates_eq]
  rfl

/-- **C46.** `find_last` returns the last candidate that exists; if there is none, the very last candidate if
missing files are allowed, `NoFilesFound` otherwise. -/
theorem C46_find_last (b : Build) (w : World) (f : FileFinder) (am : Bool) (hf : Ready f) :
    (∀ (i : Nat) c, (candidates f)[i]? = some c → w.pathExists c.1 = true →
      (∀ (j : Nat) d, i < j → (candidates f)[j]? = some d → w.pathExists d.1 = false) →
      ∃ r, findLast b w f am = .ok r ∧ Reports b w c 0 r) ∧
    ((∀ c ∈ candidates f, w.pathExists c.1 = false) →
      (am = true → ∃ c r, (candidates f)[(candidates f).length - 1]? = some c ∧ findLast b w f am = .ok r ∧
        Reports b w c 0 r) ∧
      (am = false → findLast b w f am = .err (.fileFinderError .noFilesFound))) := by
  constructor
  · intro i c hi hc hn
    refine ⟨res b w c, ?_, res_reports b w c⟩
    have h : (lastFlat b w am (none, none) (candidates f)).1 = some (res b w c) := by
      rw [split_at hi]
      apply lastFlat_hit _ hc
      intro x hx
      obtain ⟨j, hj, e⟩ := mem_drop_get hx
      exact hn j x (by omega) e
    rw [findLast_eq b w f am hf, h]
  · intro hn
    constructor
    · rintro rfl
      have hne := candidates_ne_nil hf
      refine ⟨(candidates f).getLast hne, res b w ((candidates f).getLast hne), ?_, ?_, res_reports b w _⟩
      · rw [← List.getLast?_eq_getElem?, List.getLast?_eq_some_getLast hne]
      · rw [findLast_eq b w f true hf, lastFlat_miss hn]
        simp [hne, List.getLast?_eq_some_getLast hne]
    · rintro rfl
      rw [findLast_eq b w f false hf, lastFlat_miss hn]
      simp

example : ∃ r, findLast exBuild exWorld (exFinder.withExtension "txt") true = .ok r ∧ r.path = os "/b/conf.json" :=
  ⟨_, rfl, by decide⟩

/-! ## C47 -/

theorem findAll_eq (b : Build) (w : World) (f : FileFinder) (am : Bool) (hf : Ready f) :
    findAll b w f am = (numberFlat b w ([], 0) ((candidates f).filter (hit w am)) >>= fun st =>
      if st.1.isEmpty then .err (.fileFinderError .noFilesFound) else .ok st.1) := by
  rw [findAll, validate_ready hf, Outcome.bind_ok, findAllFolders_eq b w am _ _ hf.noSep, candidates_eq]

/-- The candidates `find_all` is to list: those that exist, or all if missing files are allowed. -/
def listed (w : World) (am : Bool) (f : FileFinder) : List (OsStr × String) :=
  (candidates f).filter fun c => am || w.pathExists c.1

/-- The results list exactly these candidates, in order, numbered modulo `2^16`. -/
def Lists (b : Build) (w : World) (cs : List (OsStr × String)) (rs : List FindResult) : Prop :=
  rs.length = cs.length ∧ ∀ (i : Nat) c, cs[i]? = some c → ∃ r, rs[i]? = some r ∧ Reports b w c (i % 65536) r

theorem lists_number (b : Build) (w : World) (cs : List (OsStr × String)) :
    Lists b w cs (cs.zipIdx.map (fun x => (res b w x.1).withIndex ((0 + x.2) % 65536))) := by
  refine ⟨by simp, fun i c hc => ?_⟩
  refine ⟨(res b w c).withIndex (i % 65536), ?_, rfl, rfl, rfl, rfl⟩
  rw [List.getElem?_map, List.getElem?_zipIdx, hc]
  simp

/-- **C47.** `find_all` lists exactly the existing candidates (all candidates if missing files are allowed), in
order, numbered 0, 1, 2, …, as long as there are fewer than `2^16`; `NoFilesFound` exactly if there is none. -/
theorem C47_find_all (b : Build) (w : World) (f : FileFinder) (am : Bool) (hf : Ready f)
    (hsmall : (listed w am f).length < 65536) :
    (listed w am f ≠ [] → ∃ rs, findAll b w f am = .ok rs ∧ rs.length = (listed w am f).length ∧
      ∀ (i : Nat) c, (listed w am f)[i]? = some c → ∃ r, rs[i]? = some r ∧ Reports b w c i r) ∧
    (listed w am f = [] → findAll b w f am = .err (.fileFinderError .noFilesFound)) := by
  obtain ⟨j, hj⟩ := (numberFlat_cases b w (listed w am f) [] 0 (by decide)).1 (Or.inr (by simpa using hsmall))
  have hl := lists_number b w (listed w am f)
  have he : findAll b w f am = (numberFlat b w ([], 0) (listed w am f) >>= fun st =>
      if st.1.isEmpty then .err (.fileFinderError .noFilesFound) else .ok st.1) := findAll_eq b w f am hf
  rw [he, hj]
  constructor
  · intro hne
    refine ⟨_, ?_, hl.1, ?_⟩
    · simp [hne]
    · intro i c hc
      obtain ⟨r, h1, h2⟩ := hl.2 i c hc
      have := (List.getElem?_eq_some_iff.1 hc).1
      exact ⟨r, by simpa using h1, by rw [Nat.mod_eq_of_lt (by omega)] at h2; exact h2⟩
  · intro h; simp [h]

example : ∃ rs, findAll exBuild exWorld exFinder true = .ok rs ∧ rs.length = 4 ∧
    ∃ r, rs[3]? = some r ∧ Reports exBuild exWorld (os "/b/conf.json", "json") 3 r := by
  obtain ⟨rs, h1, h2, h3⟩ := (C47_find_all exBuild exWorld exFinder true exFinder_ready (by decide)).1 (by decide)
  exact ⟨rs, h1, h2.trans (by decide), h3 3 _ (by decide)⟩

/-- **C47**, the defect: from `2^16` listed candidates on, `find_all` panics when overflow is checked; without
overflow checks it succeeds and the numbers repeat. -/
theorem C47_index_overflow (b : Build) (w : World) (f : FileFinder) (am : Bool) (hf : Ready f)
    (hbig : 65536 ≤ (listed w am f).length) :
    (b.overflowChecks = true → findAll b w f am = .panic) ∧
    (b.overflowChecks = false → ∃ rs, findAll b w f am = .ok rs ∧ Lists b w (listed w am f) rs) := by
  have he : findAll b w f am = (numberFlat b w ([], 0) (listed w am f) >>= fun st =>
      if st.1.isEmpty then .err (.fileFinderError .noFilesFound) else .ok st.1) := findAll_eq b w f am hf
  constructor
  · intro hb
    rw [he, (numberFlat_cases b w (listed w am f) [] 0 (by decide)).2 hb (by simpa using hbig)]
    rfl
  · intro hb
    obtain ⟨j, hj⟩ := (numberFlat_cases b w (listed w am f) [] 0 (by decide)).1 (Or.inl hb)
    have hl := lists_number b w (listed w am f)
    have hne : listed w am f ≠ [] := by intro h; rw [h] at hbig; simp at hbig
    refine ⟨_, ?_, hl⟩
    rw [he, hj]
    simp [hne]

example : listed exWorld false exFinder = [(os "/b/conf.json", "json")] := by decide

theorem exBig_length : (candidates ⟨List.replicate 65536 [], "x", ["toml"]⟩).length = 65536 := by
  simp only [candidates, List.length_flatMap, List.map_replicate, List.length_map, List.length_cons, List.length_nil,
    List.sum_replicate_nat]

example (w : World) : Ready ⟨List.replicate 65536 [], "x", ["toml"]⟩ ∧
    65536 ≤ (listed w true ⟨List.replicate 65536 [], "x", ["toml"]⟩).length := by
  refine ⟨⟨by rw [Ne, List.replicate_eq_nil_iff]; decide, by decide, by decide⟩, ?_⟩
  have h : ∀ f, listed w true f = candidates f := fun f => by simp [listed]
  exact Nat.le_of_eq (by rw [h, exBig_length])

/-! ## C48 -/

/-- **C48.** `find_all_or_first` answers like `find_all(false)` if any candidate exists (also in its overflow
behaviour); otherwise it returns exactly one result, the first candidate with index 0. It never fails with
`NoFilesFound`. -/
theorem C48_find_all_or_first (b : Build) (w : World) (f : FileFinder) (hf : Ready f) :
    ((∃ c ∈ candidates f, w.pathExists c.1 = true) → findAllOrFirst b w f = findAll b w f false) ∧
    ((∀ c ∈ candidates f, w.pathExists c.1 = false) →
      ∃ c r, (candidates f)[0]? = some c ∧ findAllOrFirst b w f = .ok [r] ∧ Reports b w c 0 r) ∧
    findAllOrFirst b w f ≠ .err (.fileFinderError .noFilesFound) := by
  obtain ⟨fi, h1, h2⟩ := aofFlat_files b w (candidates f) ⟨[], none, 0⟩
  have he : findAllOrFirst b w f = (aofFlat b w ⟨[], none, 0⟩ (candidates f) >>= fun st =>
      if st.files.isEmpty then
        match st.first with
        | some r => .ok (st.files ++ [r.withIndex 0])
        | none => .err (.fileFinderError .noFilesFound)
      else .ok st.files) := by
    rw [findAllOrFirst, validate_ready hf, Outcome.bind_ok, findAllOrFirstFolders_eq b w _ _ hf.noSep, candidates_eq]
    rfl
  have hx : (∃ c ∈ candidates f, w.pathExists c.1 = true) → findAllOrFirst b w f = findAll b w f false := by
    rintro ⟨c, hc, hcx⟩
    rw [he, h1, findAll_eq b w f false hf]
    have hmem : c ∈ (candidates f).filter (hit w false) := by simp [hit, hc, hcx]
    have hne : (candidates f).filter (hit w false) ≠ [] := List.ne_nil_of_mem hmem
    by_cases hs : b.overflowChecks = false ∨ 0 + ((candidates f).filter (hit w false)).length < 65536
    · obtain ⟨j, hj⟩ := (numberFlat_cases b w _ [] 0 (by decide)).1 hs
      simp only [] at hj ⊢
      rw [hj]
      simp [hne]
    · have hb : b.overflowChecks = true := by
        cases h : b.overflowChecks
        · exact absurd (Or.inl h) hs
        · rfl
      have := (numberFlat_cases b w ((candidates f).filter (hit w false)) [] 0 (by decide)).2 hb
        (by have := fun h => hs (Or.inr h); omega)
      simp only []
      rw [this]; rfl
  have hm : (∀ c ∈ candidates f, w.pathExists c.1 = false) →
      ∃ c r, (candidates f)[0]? = some c ∧ findAllOrFirst b w f = .ok [r] ∧ Reports b w c 0 r := by
    intro hn
    obtain ⟨c, cs, e⟩ := List.exists_cons_of_ne_nil (candidates_ne_nil hf)
    have hnil : (candidates f).filter (hit w false) = [] := by
      rw [List.filter_eq_nil_iff]; intro x hx; simp [hit, hn x hx]
    refine ⟨c, (res b w c).withIndex 0, by rw [e]; rfl, ?_, rfl, rfl, rfl, rfl⟩
    rw [he, h1, hnil, h2 hn rfl, e]
    rfl
  refine ⟨hx, hm, ?_⟩
  by_cases hc : ∃ c ∈ candidates f, w.pathExists c.1 = true
  · rw [hx hc, findAll_eq b w f false hf]
    obtain ⟨c, hc, hcx⟩ := hc
    have hne : (candidates f).filter (hit w false) ≠ [] :=
      List.ne_nil_of_mem (a := c) (by simp [hit, hc, hcx])
    by_cases hs : b.overflowChecks = false ∨ 0 + ((candidates f).filter (hit w false)).length < 65536
    · obtain ⟨j, hj⟩ := (numberFlat_cases b w _ [] 0 (by decide)).1 hs
      rw [hj]; simp [hne]
    · have hb : b.overflowChecks = true := by
        cases h : b.overflowChecks
        · exact absurd (Or.inl h) hs
        · rfl
      rw [(numberFlat_cases b w ((candidates f).filter (hit w false)) [] 0 (by decide)).2 hb
        (by have := fun h => hs (Or.inr h); omega)]
      intro h; cases h
  · obtain ⟨c, r, -, h, -⟩ := hm (fun c hc' => by
      cases h : w.pathExists c.1
      · rfl
      · exact absurd ⟨c, hc', h⟩ hc)
    rw [h]; intro h; cases h

example : ∃ r, findAllOrFirst exBuild exWorld ((FileFinder.new "other").withToml.withFolder (os "/a")) = .ok [r] ∧
    r.path = os "/a/other.toml" ∧ r.exists' = false := ⟨_, rfl, by decide, by decide⟩

/-! ## C49 -/

theorem withExt_noErr (base : OsStr) (e : String) (x : BakuninError) : withExt base e ≠ .err x := by
  unfold withExt; split <;> simp

theorem bind_err_cases {ε α β : Type} {m : Outcome ε α} {k : α → Outcome ε β} {x : ε} (h : (m >>= k) = .err x) :
    m = .err x ∨ ∃ a, m = .ok a ∧ k a = .err x := by
  cases m with
  | ok a => exact Or.inr ⟨a, rfl, h⟩
  | err e => left; simpa using h
  | panic => cases h

theorem incIndex_noErr (b : Build) (i : Nat) (x : BakuninError) : incIndex b i ≠ .err x := by
  unfold incIndex; split
  · simp
  · split <;> simp

theorem findFirstExts_noErr (b : Build) (w : World) (am : Bool) (base : OsStr) (x : BakuninError)
    (exts : List String) : ∀ first, findFirstExts b w am base first exts ≠ .err x := by
  induction exts with
  | nil => intro first h; cases h
  | cons e exts ih =>
    intro first h
    rw [findFirstExts] at h
    rcases bind_err_cases h with h | ⟨a, -, h⟩
    · exact withExt_noErr _ _ _ h
    · split at h
      · cases h
      · split at h <;> exact ih _ h

theorem findFirstFolders_noErr (b : Build) (w : World) (am : Bool) (name : String) (exts : List String)
    (x : BakuninError) (ds : List OsStr) : ∀ first, findFirstFolders b w am name exts first ds ≠ .err x := by
  induction ds with
  | nil => intro first h; cases h
  | cons d ds ih =>
    intro first h
    rw [findFirstFolders] at h
    rcases bind_err_cases h with h | ⟨a, -, h⟩
    · exact findFirstExts_noErr _ _ _ _ _ _ _ h
    · split at h
      · cases h
      · exact ih _ h

theorem findLastExts_noErr (b : Build) (w : World) (am : Bool) (base : OsStr) (x : BakuninError)
    (exts : List String) : ∀ st, findLastExts b w am base st exts ≠ .err x := by
  induction exts with
  | nil => intro st h; cases h
  | cons e exts ih =>
    intro st h
    rw [findLastExts] at h
    rcases bind_err_cases h with h | ⟨a, -, h⟩
    · exact withExt_noErr _ _ _ h
    · split at h
      · exact ih _ h
      · split at h <;> exact ih _ h

theorem findLastFolders_noErr (b : Build) (w : World) (am : Bool) (name : String) (exts : List String)
    (x : BakuninError) (ds : List OsStr) : ∀ st, findLastFolders b w am name exts st ds ≠ .err x := by
  induction ds with
  | nil => intro st h; cases h
  | cons d ds ih =>
    intro st h
    rw [findLastFolders] at h
    rcases bind_err_cases h with h | ⟨a, -, h⟩
    · exact findLastExts_noErr _ _ _ _ _ _ _ h
    · exact ih _ h

theorem findAllExts_noErr (b : Build) (w : World) (am : Bool) (base : OsStr) (x : BakuninError)
    (exts : List String) : ∀ st, findAllExts b w am base st exts ≠ .err x := by
  induction exts with
  | nil => intro st h; cases h
  | cons e exts ih =>
    intro st h
    rw [findAllExts] at h
    rcases bind_err_cases h with h | ⟨a, -, h⟩
    · exact withExt_noErr _ _ _ h
    · split at h
      · rcases bind_err_cases h with h | ⟨a, -, h⟩
        · exact incIndex_noErr _ _ _ h
        · exact ih _ h
      · exact ih _ h

theorem findAllFolders_noErr (b : Build) (w : World) (am : Bool) (name : String) (exts : List String)
    (x : BakuninError) (ds : List OsStr) : ∀ st, findAllFolders b w am name exts st ds ≠ .err x := by
  induction ds with
  | nil => intro st h; cases h
  | cons d ds ih =>
    intro st h
    rw [findAllFolders] at h
    rcases bind_err_cases h with h | ⟨a, -, h⟩
    · exact findAllExts_noErr _ _ _ _ _ _ _ h
    · exact ih _ h

theorem findAllOrFirstExts_noErr (b : Build) (w : World) (base : OsStr) (x : BakuninError)
    (exts : List String) : ∀ st, findAllOrFirstExts b w base st exts ≠ .err x := by
  induction exts with
  | nil => intro st h; cases h
  | cons e exts ih =>
    intro st h
    rw [findAllOrFirstExts] at h
    rcases bind_err_cases h with h | ⟨a, -, h⟩
    · exact withExt_noErr _ _ _ h
    · split at h
      · rcases bind_err_cases h with h | ⟨a, -, h⟩
        · exact incIndex_noErr _ _ _ h
        · exact ih _ h
      · split at h <;> exact ih _ h

theorem findAllOrFirstFolders_noErr (b : Build) (w : World) (name : String) (exts : List String)
    (x : BakuninError) (ds : List OsStr) : ∀ st, findAllOrFirstFolders b w name exts st ds ≠ .err x := by
  induction ds with
  | nil => intro st h; cases h
  | cons d ds ih =>
    intro st h
    rw [findAllOrFirstFolders] at h
    rcases bind_err_cases h with h | ⟨a, -, h⟩
    · exact findAllOrFirstExts_noErr _ _ _ _ _ _ h
    · exact ih _ h

/-- All four searches fail with this error. -/
def AllFail (b : Build) (w : World) (f : FileFinder) (am : Bool) (e : FileFinderError) : Prop :=
  findFirst b w f am = .err (.fileFinderError e) ∧ findLast b w f am = .err (.fileFinderError e) ∧
  findAll b w f am = .err (.fileFinderError e) ∧ findAllOrFirst b w f = .err (.fileFinderError e)

/-- The only error any of the four searches can give. -/
def OnlyFails (b : Build) (w : World) (f : FileFinder) (am : Bool) (e : FileFinderError) : Prop :=
  (∀ x, findFirst b w f am = .err x → x = .fileFinderError e) ∧
  (∀ x, findLast b w f am = .err x → x = .fileFinderError e) ∧
  (∀ x, findAll b w f am = .err x → x = .fileFinderError e) ∧
  (∀ x, findAllOrFirst b w f = .err x → x = .fileFinderError e)

/-- **C49.** Without folders every search fails with `NoFoldersDefined`; with folders but without extensions, with
`NoExtensionsDefined`; with both, no search can fail with anything but `NoFilesFound`. Whatever the world is. -/
theorem C49_validation (b : Build) (w : World) (f : FileFinder) (am : Bool) :
    (f.folders = [] → AllFail b w f am .noFoldersDefined) ∧
    (f.folders ≠ [] → f.extensions = [] → AllFail b w f am .noExtensionsDefined) ∧
    (f.folders ≠ [] → f.extensions ≠ [] → OnlyFails b w f am .noFilesFound) := by
  refine ⟨fun h => ?_, fun h1 h2 => ?_, fun h1 h2 => ?_⟩
  · have hv : f.validate = .err (.fileFinderError .noFoldersDefined) := by simp [validate, h]
    exact ⟨by rw [findFirst, hv]; rfl, by rw [findLast, hv]; rfl, by rw [findAll, hv]; rfl,
      by rw [findAllOrFirst, hv]; rfl⟩
  · have hv : f.validate = .err (.fileFinderError .noExtensionsDefined) := by simp [validate, h1, h2]
    exact ⟨by rw [findFirst, hv]; rfl, by rw [findLast, hv]; rfl, by rw [findAll, hv]; rfl,
      by rw [findAllOrFirst, hv]; rfl⟩
  · have hv : f.validate = .ok () := by simp [validate, h1, h2]
    refine ⟨fun x h => ?_, fun x h => ?_, fun x h => ?_, fun x h => ?_⟩
    · rw [findFirst, hv, Outcome.bind_ok] at h
      rcases bind_err_cases h with h | ⟨a, -, h⟩
      · exact absurd h (findFirstFolders_noErr _ _ _ _ _ _ _ _)
      · split at h
        · cases h
        · split at h
          · split at h <;> cases h; rfl
          · cases h; rfl
    · rw [findLast, hv, Outcome.bind_ok] at h
      rcases bind_err_cases h with h | ⟨a, -, h⟩
      · exact absurd h (findLastFolders_noErr _ _ _ _ _ _ _ _)
      · split at h
        · cases h
        · split at h
          · split at h <;> cases h; rfl
          · cases h; rfl
    · rw [findAll, hv, Outcome.bind_ok] at h
      rcases bind_err_cases h with h | ⟨a, -, h⟩
      · exact absurd h (findAllFolders_noErr _ _ _ _ _ _ _ _)
      · split at h <;> cases h; rfl
    · rw [findAllOrFirst, hv, Outcome.bind_ok] at h
      rcases bind_err_cases h with h | ⟨a, -, h⟩
      · exact absurd h (findAllOrFirstFolders_noErr _ _ _ _ _ _ _)
      · split at h
        · split at h <;> cases h; rfl
        · cases h

example : findFirst exBuild exWorld ((FileFinder.new "x").withToml) true = .err (.fileFinderError .noFoldersDefined) ∧
    findAll exBuild exWorld ((FileFinder.new "x").withFolder []) true = .err (.fileFinderError .noExtensionsDefined) :=
  ⟨rfl, rfl⟩

theorem withExt_bad {base : OsStr} {e : String} (h : '/' ∈ e.toList) : withExt base e = .panic := by
  simp only [withExt, pathWithExtension, if_pos ((sep_mem_os e).2 h)]

/-- **C49.** An extension that contains a path separator: std's `with_extension` panics on it. `find_last`, `find_all` and `find_all_or_first` always
get there; `find_first` unless it finds a file in the first folder with an extension listed before. -/
theorem C49_separator (b : Build) (w : World) (f : FileFinder) (am : Bool) (folder : OsStr) (more : List OsStr) (good rest : List String)
    (bad : String) (hf : f.folders = folder :: more) (he : f.extensions = good ++ bad :: rest) (hg : ∀ e ∈ good, '/' ∉ e.toList)
    (hb : '/' ∈ bad.toList) :
    f.findLast b w am = .panic ∧ f.findAll b w am = .panic ∧ f.findAllOrFirst b w = .panic ∧
    (f.findFirst b w am = .panic ↔ ∀ e ∈ good, w.pathExists (candidate folder f.fileName e) = false) ∧
    ((∃ e ∈ good, w.pathExists (candidate folder f.fileName e) = true) → ∃ r, f.findFirst b w am = .ok r ∧ r.exists' = true) := by
  have hv : f.validate = .ok () := by simp [validate, hf, he]
  refine ⟨?_, ?_, ?_, ?_⟩
  · rw [findLast, hv, Outcome.bind_ok, hf, findLastFolders, he]
    suffices h : ∀ (good : List String) st, (∀ e ∈ good, '/' ∉ e.toList) →
        findLastExts b w am (pathJoin folder (os f.fileName)) st (good ++ bad :: rest) = .panic by rw [h good _ hg]; rfl
    intro good
    induction good with
    | nil => intro st _; rw [List.nil_append, findLastExts, withExt_bad hb]; rfl
    | cons e good ih =>
      intro st h
      rw [List.cons_append, findLastExts, withExt_ok (h e (by simp)), Outcome.bind_ok]
      have ih' := fun st => ih st (fun e he => h e (by simp [he]))
      split
      · exact ih' _
      · split <;> exact ih' _
  · rw [findAll, hv, Outcome.bind_ok, hf, findAllFolders, he]
    suffices h : ∀ (good : List String) st, (∀ e ∈ good, '/' ∉ e.toList) →
        findAllExts b w am (pathJoin folder (os f.fileName)) st (good ++ bad :: rest) = .panic by rw [h good _ hg]; rfl
    intro good
    induction good with
    | nil => intro st _; rw [List.nil_append, findAllExts, withExt_bad hb]; rfl
    | cons e good ih =>
      intro st h
      rw [List.cons_append, findAllExts, withExt_ok (h e (by simp)), Outcome.bind_ok]
      have ih' := fun st => ih st (fun e he => h e (by simp [he]))
      split
      · cases hi : incIndex b st.2 with
        | ok i => rw [Outcome.bind_ok]; exact ih' _
        | err e => exact absurd hi (incIndex_noErr b _ e)
        | panic => rfl
      · exact ih' _
  · rw [findAllOrFirst, hv, Outcome.bind_ok, hf, findAllOrFirstFolders, he]
    suffices h : ∀ (good : List String) st, (∀ e ∈ good, '/' ∉ e.toList) →
        findAllOrFirstExts b w (pathJoin folder (os f.fileName)) st (good ++ bad :: rest) = .panic by rw [h good _ hg]; rfl
    intro good
    induction good with
    | nil => intro st _; rw [List.nil_append, findAllOrFirstExts, withExt_bad hb]; rfl
    | cons e good ih =>
      intro st h
      rw [List.cons_append, findAllOrFirstExts, withExt_ok (h e (by simp)), Outcome.bind_ok]
      have ih' := fun st => ih st (fun e he => h e (by simp [he]))
      split
      · cases hi : incIndex b st.index with
        | ok i => rw [Outcome.bind_ok]; exact ih' _
        | err e => exact absurd hi (incIndex_noErr b _ e)
        | panic => rfl
      · split <;> exact ih' _
  · rw [findFirst, hv, Outcome.bind_ok, hf, findFirstFolders, he]
    have key : ∀ (good : List String) first, (∀ e ∈ good, '/' ∉ e.toList) →
        ((∀ e ∈ good, w.pathExists (candidate folder f.fileName e) = false) →
          findFirstExts b w am (pathJoin folder (os f.fileName)) first (good ++ bad :: rest) = .panic) ∧
        ((∃ e ∈ good, w.pathExists (candidate folder f.fileName e) = true) →
          ∃ r, findFirstExts b w am (pathJoin folder (os f.fileName)) first (good ++ bad :: rest) = .ok (.ret r) ∧ r.exists' = true) := by
      intro good
      induction good with
      | nil =>
        intro first _
        refine ⟨fun _ => ?_, fun ⟨e, he, _⟩ => by cases he⟩
        rw [List.nil_append, findFirstExts, withExt_bad hb]; rfl
      | cons e good ih =>
        intro first h
        have ih' := fun first => ih first (fun e he => h e (by simp [he]))
        rw [List.cons_append, findFirstExts, withExt_ok (h e (by simp)), Outcome.bind_ok]
        by_cases hx : w.pathExists (candidate folder f.fileName e) = true
        · have hx' : w.pathExists (replaceExtension (pathJoin folder (os f.fileName)) (os e)) = true := hx
          rw [if_pos hx']
          refine ⟨fun hall => ?_, fun _ => ⟨_, rfl, hx'⟩⟩
          rw [hall e (by simp)] at hx; cases hx
        · have hx' : ¬ w.pathExists (replaceExtension (pathJoin folder (os f.fileName)) (os e)) = true := hx
          rw [if_neg hx']
          constructor
          · intro hall
            have := fun first => (ih' first).1 (fun e he => hall e (by simp [he]))
            split <;> exact this _
          · rintro ⟨e', he', hxe⟩
            have hin : e' ∈ good := by
              rcases List.mem_cons.1 he' with rfl | h
              · exact absurd hxe hx
              · exact h
            have := fun first => (ih' first).2 ⟨e', hin, hxe⟩
            split <;> exact this _
    obtain ⟨k1, k2⟩ := key good none hg
    by_cases hall : ∀ e ∈ good, w.pathExists (candidate folder f.fileName e) = false
    · rw [k1 hall]
      refine ⟨⟨fun _ => hall, fun _ => rfl⟩, fun ⟨e, he, hx⟩ => ?_⟩
      rw [hall e he] at hx; cases hx
    · have hex : ∃ e ∈ good, w.pathExists (candidate folder f.fileName e) = true := by
        apply Classical.byContradiction
        intro hno
        exact hall fun e he => by
          cases hx : w.pathExists (candidate folder f.fileName e) with
          | false => rfl
          | true => exact absurd ⟨e, he, hx⟩ hno
      obtain ⟨r, hr, hre⟩ := k2 hex
      rw [hr]
      exact ⟨⟨fun h => (by cases h), fun h => absurd h hall⟩, fun _ => ⟨r, rfl, hre⟩⟩

/-! ## C50 -/

/-- **C50.** For a plain name without a dot after its first character, the candidate is the folder joined with
`name.ext`. -/
theorem C50_plain (folder : OsStr) (name ext : String) (hn : PlainName name) (he : ext ≠ "")
    (hd : '.' ∉ name.toList.drop 1) : candidate folder name ext = pathJoin folder (os (name ++ "." ++ ext)) := by
  have hl := nameLike_os hn
  have hs : splitDot (os name) = (os name, none) := by
    cases hc : name.toList with
    | nil => exact absurd (String.toList_inj.1 (by rw [hc]; rfl)) hn.ne
    | cons c r =>
      have hr : dot ∉ r.map OsChar.chr := by
        rw [hc] at hd; simpa [dot] using hd
      have ho : os name = .chr c :: r.map OsChar.chr := by rw [os, hc]; rfl
      rw [ho]
      by_cases h : c = '.'
      · subst h; exact splitDot_firstDot hr
      · apply splitDot_noDot
        simp only [List.mem_cons, not_or]
        exact ⟨fun e => h (OsChar.chr.inj e).symm, hr⟩
  have hne : os ext ≠ [] := fun e => he (os_inj e)
  have hh : (os (name ++ "." ++ ext)).head? ≠ some sep := by
    rw [os_append, os_append, List.append_assoc]
    obtain ⟨x, t, e⟩ := List.exists_cons_of_ne_nil hl.ne
    have := hl.head
    rw [e] at this ⊢; exact this
  rw [candidate, replaceExtension, splitFileName_join hn]
  simp only [hs, if_neg hne]
  rw [pathJoin_eq hh, os_append, os_append, List.append_assoc, List.append_assoc]
  rfl

/-- **C50.** If the plain name has a dot after its first character, everything after the last dot is replaced:
`s.t` becomes `s.ext`. -/
theorem C50_dotted (folder : OsStr) (s t ext : String) (hn : PlainName (s ++ "." ++ t)) (hs : s ≠ "")
    (ht : '.' ∉ t.toList) (he : ext ≠ "") :
    candidate folder (s ++ "." ++ t) ext = pathJoin folder (os (s ++ "." ++ ext)) := by
  have hl := nameLike_os hn
  have hs' : os s ≠ [] := fun e => hs (os_inj e)
  have hsd : splitDot (os (s ++ "." ++ t)) = (os s, some (os t)) := by
    rw [os_append, os_append, List.append_assoc]
    exact splitDot_append hs' (t := os t) (by rw [mem_os_dot]; exact ht)
  have hne : os ext ≠ [] := fun e => he (os_inj e)
  have hh : (os (s ++ "." ++ ext)).head? ≠ some sep := by
    have := hl.head
    obtain ⟨x, r, e⟩ := List.exists_cons_of_ne_nil hs'
    rw [os_append, os_append, e] at this ⊢
    exact this
  rw [candidate, replaceExtension, splitFileName_join hn]
  simp only [hsd, if_neg hne]
  rw [pathJoin_eq hh, os_append, os_append, List.append_assoc, List.append_assoc]
  rfl

/-- **C50.** Joining: a relative name goes below the folder, with exactly one separator added where needed. -/
theorem C50_join (folder : OsStr) (name : String) (hn : PlainName name) :
    (folder = [] → pathJoin folder (os name) = os name) ∧
    (folder ≠ [] → folder.getLast? ≠ some sep → pathJoin folder (os name) = folder ++ os "/" ++ os name) ∧
    (folder.getLast? = some sep → pathJoin folder (os name) = folder ++ os name) := by
  have hh := (nameLike_os hn).head
  refine ⟨?_, ?_, ?_⟩
  · rintro rfl; simp [pathJoin, hh]
  · intro h1 h2; simp [pathJoin, hh, h1, h2]; rfl
  · intro h; simp [pathJoin, hh, h]

/-- **C50.** An absolute name replaces the folder altogether. -/
theorem C50_absolute (folder : OsStr) (name ext : String) (h : name.toList.head? = some '/') :
    pathJoin folder (os name) = os name ∧ ∀ folder', candidate folder name ext = candidate folder' name ext := by
  have hh : (os name).head? = some sep := by
    rw [os, List.head?_map, h]; rfl
  have e : ∀ folder, pathJoin folder (os name) = os name := fun folder => by rw [pathJoin, if_pos hh]
  exact ⟨e folder, fun folder' => by rw [candidate, candidate, e, e]⟩

/-- **C50.** With the empty extension a plain name without later dot is looked up as it is, and a dotted one without its last segment. -/
theorem C50_empty_extension (folder : OsStr) :
    (∀ name, PlainName name → '.' ∉ name.toList.drop 1 → candidate folder name "" = pathJoin folder (os name)) ∧
    (∀ s t, PlainName (s ++ "." ++ t) → s ≠ "" → '.' ∉ t.toList → candidate folder (s ++ "." ++ t) "" = pathJoin folder (os s)) := by
  have hnil : os "" = [] := rfl
  refine ⟨fun name hn hd => ?_, fun s t hn hs ht => ?_⟩
  · have hl := nameLike_os hn
    have hs : splitDot (os name) = (os name, none) := by
      cases hc : name.toList with
      | nil => exact absurd (String.toList_inj.1 (by rw [hc]; rfl)) hn.ne
      | cons c r =>
        have hr : dot ∉ r.map OsChar.chr := by
          rw [hc] at hd; simpa [dot] using hd
        have ho : os name = .chr c :: r.map OsChar.chr := by rw [os, hc]; rfl
        rw [ho]
        by_cases h : c = '.'
        · subst h; exact splitDot_firstDot hr
        · apply splitDot_noDot
          simp only [List.mem_cons, not_or]
          exact ⟨fun e => h (OsChar.chr.inj e).symm, hr⟩
    rw [candidate, replaceExtension, splitFileName_join hn]
    simp only [hs, hnil, if_true, List.append_nil]
    rw [pathJoin_eq hl.head]
  · have hl := nameLike_os hn
    have hs' : os s ≠ [] := fun e => hs (os_inj e)
    have hsd : splitDot (os (s ++ "." ++ t)) = (os s, some (os t)) := by
      rw [os_append, os_append, List.append_assoc]
      exact splitDot_append hs' (t := os t) (by rw [mem_os_dot]; exact ht)
    have hh : (os s).head? ≠ some sep := by
      have := hl.head
      obtain ⟨x, r, e⟩ := List.exists_cons_of_ne_nil hs'
      rw [os_append, os_append, e] at this
      rw [e]; exact this
    rw [candidate, replaceExtension, splitFileName_join hn]
    simp only [hsd, hnil, if_true, List.append_nil]
    rw [pathJoin_eq hh]

/-- **C50.** Whatever the folder and the name are (if they make a path with a file name at all), the candidate's
extension is the requested one. -/
theorem C50_extension (folder : OsStr) (name ext : String) (he : ext ≠ "") (hes : '/' ∉ ext.toList)
    (hed : '.' ∉ ext.toList) :
    (splitFileName (pathJoin folder (os name)) ≠ none → pathExtension (candidate folder name ext) = some (os ext)) ∧
    (PlainName name → pathExtension (candidate folder name ext) = some (os ext)) := by
  have h : splitFileName (pathJoin folder (os name)) ≠ none →
      pathExtension (candidate folder name ext) = some (os ext) := fun h =>
    pathExtension_replace h (fun e => he (os_inj e)) (by rw [mem_os_sep]; exact hes) (by rw [mem_os_dot]; exact hed)
  exact ⟨h, fun hn => h (by rw [splitFileName_join hn]; simp)⟩

/-- **C50.** A path without file name (such as a folder joined with `..`) is looked up as it is, without extension. -/
theorem C50_no_file_name (folder : OsStr) (name ext : String)
    (h : splitFileName (pathJoin folder (os name)) = none) :
    candidate folder name ext = pathJoin folder (os name) ∧ pathExtension (candidate folder name ext) = none := by
  have e : candidate folder name ext = pathJoin folder (os name) := by rw [candidate, replaceExtension, h]
  exact ⟨e, by rw [e, pathExtension, h]; rfl⟩

theorem plain_of (s : String) (h : s ≠ "" ∧ s ≠ "." ∧ s ≠ ".." ∧ '/' ∉ s.toList) : PlainName s :=
  ⟨h.1, h.2.1, h.2.2.1, h.2.2.2⟩

example : candidate (os "/etc") ".app-config" "toml" = pathJoin (os "/etc") (os (".app-config" ++ "." ++ "toml")) :=
  C50_plain (os "/etc") ".app-config" "toml" (plain_of _ (by decide)) (by decide) (by decide)
example : candidate (os "/etc/") ("my" ++ "." ++ "config") "toml" = pathJoin (os "/etc/") (os ("my" ++ "." ++ "toml")) :=
  C50_dotted (os "/etc/") "my" "config" "toml" (plain_of _ (by decide)) (by decide) (by decide) (by decide)
example : pathJoin (os "/etc") (os "conf") = os "/etc" ++ os "/" ++ os "conf" ∧
    pathJoin (os "/etc/") (os "conf") = os "/etc/" ++ os "conf" ∧ pathJoin [] (os "conf") = os "conf" :=
  have h : PlainName "conf" := plain_of _ (by decide)
  ⟨(C50_join (os "/etc") "conf" h).2.1 (by decide) (by decide), (C50_join (os "/etc/") "conf" h).2.2 (by decide),
   (C50_join [] "conf" h).1 rfl⟩
example : pathJoin (os "/etc") (os "/abs/name") = os "/abs/name" ∧
    ∀ folder, candidate (os "/etc") "/abs/name" "toml" = candidate folder "/abs/name" "toml" :=
  C50_absolute (os "/etc") "/abs/name" "toml" (by decide)
example : candidate (os "/etc") ("my" ++ "." ++ "config") "" = pathJoin (os "/etc") (os "my") ∧
    candidate (os "/etc") ".rc" "" = pathJoin (os "/etc") (os ".rc") :=
  ⟨(C50_empty_extension (os "/etc")).2 "my" "config" (plain_of _ (by decide)) (by decide) (by decide),
   (C50_empty_extension (os "/etc")).1 ".rc" (plain_of _ (by decide)) (by decide)⟩
example : pathExtension (candidate (os "/etc") "my.config" "toml") = some (os "toml") :=
  (C50_extension (os "/etc") "my.config" "toml" (by decide) (by decide) (by decide)).2 (plain_of _ (by decide))

example : PlainName ".app-config" ∧ '.' ∉ ".app-config".toList.drop 1 := ⟨plain_of _ (by decide), by decide⟩
example : candidate (os "/etc") ".app-config" "toml" = os "/etc/.app-config.toml" := by decide
example : PlainName ("my" ++ "." ++ "config") := plain_of _ (by decide)
example : candidate (os "/etc/") "my.config" "toml" = os "/etc/my.toml" := by decide
example : candidate (os "/etc") "my.config" "" = os "/etc/my" := by decide
example : candidate (os "/etc") "/root/x" "toml" = os "/root/x.toml" := by decide
example (b : Build) (w : World) : findAll b w ⟨[os "/etc"], "x", ["toml", "d/json"]⟩ true = .panic :=
  (C49_separator b w _ true (os "/etc") [] ["toml"] [] "d/json" rfl rfl (by simp) (by decide)).2.1
example : candidate (os "/etc/app") "" "toml" = os "/etc/app.toml" := by decide
example : splitFileName (pathJoin (os "/etc") (os "..")) = none := by decide
example : candidate (os "/etc") "/abs/name" "toml" = os "/abs/name.toml" := by decide

/-! ## C51 -/

/-- One of the searches returned the result. -/
inductive Returned (b : Build) (w : World) (f : FileFinder) (r : FindResult) : Prop
  | first (am : Bool) (h : findFirst b w f am = .ok r)
  | last (am : Bool) (h : findLast b w f am = .ok r)
  | all (am : Bool) (rs : List FindResult) (h : findAll b w f am = .ok rs) (hr : r ∈ rs)
  | allOrFirst (rs : List FindResult) (h : findAllOrFirst b w f = .ok rs) (hr : r ∈ rs)

theorem lists_mem {b : Build} {w : World} {cs : List (OsStr × String)} {rs : List FindResult} (h : Lists b w cs rs)
    {r : FindResult} (hr : r ∈ rs) : ∃ i, ∃ c ∈ cs, rs[i]? = some r ∧ Reports b w c (i % 65536) r := by
  obtain ⟨i, hi⟩ := List.mem_iff_getElem?.1 hr
  obtain ⟨c, hc⟩ : ∃ c, cs[i]? = some c := by
    have := (List.getElem?_eq_some_iff.1 hi).1
    rw [h.1] at this
    exact ⟨_, List.getElem?_eq_getElem this⟩
  obtain ⟨r', h1, h2⟩ := h.2 i c hc
  rw [hi] at h1; cases h1
  exact ⟨i, c, List.mem_of_getElem? hc, hi, h2⟩

theorem findAll_lists {b : Build} {w : World} {f : FileFinder} {am : Bool} (hf : Ready f) {rs : List FindResult}
    (h : findAll b w f am = .ok rs) : Lists b w (listed w am f) rs := by
  by_cases hs : (listed w am f).length < 65536
  · obtain ⟨h1, h2⟩ := C47_find_all b w f am hf hs
    by_cases hn : listed w am f = []
    · rw [h2 hn] at h; cases h
    · obtain ⟨rs', e, h3, h4⟩ := h1 hn
      rw [h] at e; cases e
      refine ⟨h3, fun i c hc => ?_⟩
      obtain ⟨r, h5, h6⟩ := h4 i c hc
      have := (List.getElem?_eq_some_iff.1 hc).1
      exact ⟨r, h5, by rw [Nat.mod_eq_of_lt (by omega)]; exact h6⟩
  · obtain ⟨h1, h2⟩ := C47_index_overflow b w f am hf (by omega)
    cases hb : b.overflowChecks
    · obtain ⟨rs', e, h3⟩ := h2 hb
      rw [h] at e; cases e; exact h3
    · rw [h1 hb] at h; cases h

theorem exists_first {α : Type} (p : α → Bool) (l : List α) (h : ∃ c ∈ l, p c = true) :
    ∃ (i : Nat) (c : α), l[i]? = some c ∧ p c = true ∧ ∀ (j : Nat) d, j < i → l[j]? = some d → p d = false := by
  induction l with
  | nil => obtain ⟨c, hc, -⟩ := h; cases hc
  | cons a l ih =>
    by_cases ha : p a = true
    · exact ⟨0, a, rfl, ha, fun j d hj => by omega⟩
    · obtain ⟨c, hc, hp⟩ := h
      rcases List.mem_cons.1 hc with rfl | hc
      · exact absurd hp ha
      · obtain ⟨i, c, h1, h2, h3⟩ := ih ⟨c, hc, hp⟩
        refine ⟨i + 1, c, by simpa using h1, h2, fun j d hj hd => ?_⟩
        cases j with
        | zero => simp at hd; subst hd; exact Bool.eq_false_iff.2 ha
        | succ j => exact h3 j d (by omega) (by simpa using hd)

theorem exists_last {α : Type} (p : α → Bool) (l : List α) (h : ∃ c ∈ l, p c = true) :
    ∃ (i : Nat) (c : α), l[i]? = some c ∧ p c = true ∧ ∀ (j : Nat) d, i < j → l[j]? = some d → p d = false := by
  induction l with
  | nil => obtain ⟨c, hc, -⟩ := h; cases hc
  | cons a l ih =>
    by_cases hx : ∃ c ∈ l, p c = true
    · obtain ⟨i, c, h1, h2, h3⟩ := ih hx
      refine ⟨i + 1, c, by simpa using h1, h2, fun j d hj hd => ?_⟩
      cases j with
      | zero => omega
      | succ j => exact h3 j d (by omega) (by simpa using hd)
    · obtain ⟨c, hc, hp⟩ := h
      rcases List.mem_cons.1 hc with rfl | hc
      · refine ⟨0, c, rfl, hp, fun j d hj hd => ?_⟩
        cases j with
        | zero => omega
        | succ j =>
          have hm : d ∈ l := List.mem_of_getElem? (by simpa using hd)
          exact Bool.eq_false_iff.2 (fun h => hx ⟨d, hm, h⟩)
      · exact absurd ⟨c, hc, hp⟩ hx

/-- Either some candidate exists or none does. -/
theorem some_or_none (w : World) (f : FileFinder) :
    (∃ c ∈ candidates f, w.pathExists c.1 = true) ∨ ∀ c ∈ candidates f, w.pathExists c.1 = false := by
  by_cases h : ∃ c ∈ candidates f, w.pathExists c.1 = true
  · exact Or.inl h
  · exact Or.inr fun c hc => Bool.eq_false_iff.2 fun hx => h ⟨c, hc, hx⟩

theorem returned_reports {b : Build} {w : World} {f : FileFinder} (hf : Ready f) {r : FindResult}
    (h : Returned b w f r) : ∃ c ∈ candidates f, ∃ i, Reports b w c i r := by
  cases h with
  | first am h =>
    rcases some_or_none w f with hx | hn
    · obtain ⟨i, c, h1, h2, h3⟩ := exists_first (fun c : OsStr × String => w.pathExists c.1) _ hx
      obtain ⟨r', e, h4⟩ := (C45_find_first b w f am hf).1 i c h1 h2 h3
      rw [h] at e; cases e
      exact ⟨c, List.mem_of_getElem? h1, 0, h4⟩
    · cases am with
      | true =>
        obtain ⟨c, r', h1, e, h4⟩ := ((C45_find_first b w f true hf).2 hn).1 rfl
        rw [h] at e; cases e
        exact ⟨c, List.mem_of_getElem? h1, 0, h4⟩
      | false => rw [((C45_find_first b w f false hf).2 hn).2 rfl] at h; cases h
  | last am h =>
    rcases some_or_none w f with hx | hn
    · obtain ⟨i, c, h1, h2, h3⟩ := exists_last (fun c : OsStr × String => w.pathExists c.1) _ hx
      obtain ⟨r', e, h4⟩ := (C46_find_last b w f am hf).1 i c h1 h2 h3
      rw [h] at e; cases e
      exact ⟨c, List.mem_of_getElem? h1, 0, h4⟩
    · cases am with
      | true =>
        obtain ⟨c, r', h1, e, h4⟩ := ((C46_find_last b w f true hf).2 hn).1 rfl
        rw [h] at e; cases e
        exact ⟨c, List.mem_of_getElem? h1, 0, h4⟩
      | false => rw [((C46_find_last b w f false hf).2 hn).2 rfl] at h; cases h
  | all am rs h hr =>
    obtain ⟨i, c, hc, -, h2⟩ := lists_mem (findAll_lists hf h) hr
    exact ⟨c, (List.mem_filter.1 hc).1, _, h2⟩
  | allOrFirst rs h hr =>
    rcases some_or_none w f with hx | hn
    · rw [(C48_find_all_or_first b w f hf).1 hx] at h
      obtain ⟨i, c, hc, -, h2⟩ := lists_mem (findAll_lists hf h) hr
      exact ⟨c, (List.mem_filter.1 hc).1, _, h2⟩
    · obtain ⟨c, r', h1, e, h4⟩ := (C48_find_all_or_first b w f hf).2.1 hn
      rw [h] at e; cases e
      simp only [List.mem_singleton] at hr; subst hr
      exact ⟨c, List.mem_of_getElem? h1, 0, h4⟩

/-- **C51.** Every returned result names a candidate and tells the truth about its existence; but for an extension
given without leading dot (as the documentation demands) its `extension` field is always `Custom`, so that
`match_path` says `false` of every path, even its own. -/
theorem C51_truthful (b : Build) (w : World) (f : FileFinder) (hf : Ready f) (r : FindResult)
    (h : Returned b w f r) :
    ∃ folder ∈ f.folders, ∃ ext ∈ f.extensions, r.path = candidate folder f.fileName ext ∧
      r.exists' = w.pathExists r.path ∧
      (ext.toList.head? ≠ some '.' → r.extension = .custom ext ∧ ∀ p, r.extension.matchPath p = false) := by
  obtain ⟨c, hc, i, h1, h2, -, h4⟩ := returned_reports hf h
  simp only [candidates, List.mem_flatMap, List.mem_map] at hc
  obtain ⟨folder, hfo, ext, hext, rfl⟩ := hc
  refine ⟨folder, hfo, ext, hext, h1, by rw [h2, h1], fun hd => ?_⟩
  have : FileExtension.ofStr b ext = .custom ext := by
    unfold FileExtension.ofStr
    rw [if_neg, if_neg]
    · rintro ⟨-, rfl⟩; exact hd (by decide)
    · rintro ⟨-, rfl⟩; exact hd (by decide)
  rw [this] at h4
  exact ⟨h4, fun p => by rw [h4]; rfl⟩

/-- The hit of a first search in the example world tells the truth. -/
example (r : FindResult) (h : findFirst exBuild exWorld exFinder false = .ok r) :
    ∃ folder ∈ exFinder.folders, ∃ ext ∈ exFinder.extensions, r.path = candidate folder "conf" ext ∧
      r.exists' = exWorld.pathExists r.path := by
  obtain ⟨fo, h1, e, h2, h3, h4, -⟩ := C51_truthful exBuild exWorld exFinder exFinder_ready r (.first false h)
  exact ⟨fo, h1, e, h2, h3, h4⟩

/-- **C51**, what existing means: a result says that its file exists exactly if something is at its path, be it a file or anything else, such as a directory. -/
theorem C51_exists (b : Build) (w : World) (f : FileFinder) (hf : Ready f) (r : FindResult) (h : Returned b w f r) :
    r.exists' = true ↔ (∃ bs re we, w.disk (w.locate r.path) = .file bs re we) ∨ ∃ code, w.disk (w.locate r.path) = .other code := by
  obtain ⟨-, -, -, -, -, h1, -⟩ := C51_truthful b w f hf r h
  rw [h1]
  unfold World.pathExists
  cases w.disk (w.locate r.path) <;> simp

/-- In a world of directories the very first candidate, a directory, is found. -/
example : ∃ r, findFirst exBuild { exWorld with disk := fun _ => .other 21 } exFinder false = .ok r ∧ r.exists' = true :=
  ⟨_, rfl, (C51_exists exBuild { exWorld with disk := fun _ => .other 21 } exFinder exFinder_ready _ (.first false rfl)).2 (.inr ⟨21, rfl⟩)⟩

/-- **C51.** The tag of a text: `Toml` exactly for `.toml` with the feature on, `Json` exactly for `.json` with the feature on,
otherwise the text itself. Its text form is that of the tag, without dot. -/
theorem C51_from (b : Build) (ext : String) :
    (FileExtension.ofStr b ext = .toml ↔ b.toml = true ∧ ext = ".toml") ∧
    (FileExtension.ofStr b ext = .json ↔ b.json = true ∧ ext = ".json") ∧
    (∀ e, FileExtension.ofStr b ext = .custom e ↔
      e = ext ∧ ¬ (b.toml = true ∧ ext = ".toml") ∧ ¬ (b.json = true ∧ ext = ".json")) ∧
    FileExtension.toml.asStr = "toml" ∧ FileExtension.json.asStr = "json" ∧ (FileExtension.custom ext).asStr = ext := by
  have hne : ¬ (".json" = ".toml") := by decide
  unfold FileExtension.ofStr
  refine ⟨?_, ?_, fun e => ?_, rfl, rfl, rfl⟩
  · split
    · rename_i h; simp [h]
    · rename_i h; split <;> simp [h]
  · split
    · rename_i h; simp [h, Ne.symm hne]
    · split
      · rename_i h; simp [h]
      · rename_i h; simp [h]
  · split
    · rename_i h; simp [h]
    · rename_i h1
      split
      · rename_i h; simp [h]
      · rename_i h2
        constructor
        · intro h; cases h; exact ⟨rfl, h1, h2⟩
        · rintro ⟨rfl, -, -⟩; rfl

example : ∃ r, Returned exBuild exWorld exFinder r ∧ r.extension = .custom "json" ∧ r.exists' = true ∧
    r.extension.matchPath r.path = false ∧ FileExtension.json.matchPath r.path = true :=
  ⟨_, .first true rfl, by decide, by decide, by decide, by decide⟩

/-! ## C52 -/

/-- A call that builds a finder up. -/
inductive BuilderCall where
  | withFolder (p : OsStr)
  | withExtension (e : String)
  | withToml
  | withJson
  | withSupportedExtensions
  | withOsDirectory (d : OSDirectory)
  | withWorkingDirectory
  | withUserHome
  | withUserConfig
  | withUserPreferences
  | withAppConfig (app : String)
  | withAppHome (app : String)
  | withPath (p : String)

/-- The finder after the call. -/
def BuilderCall.apply (b : Build) (w : World) (f : FileFinder) : BuilderCall → FileFinder
  | .withFolder p => f.withFolder p
  | .withExtension e => f.withExtension e
  | .withToml => f.withToml
  | .withJson => f.withJson
  | .withSupportedExtensions => f.withSupportedExtensions b
  | .withOsDirectory d => f.withOsDirectory w d
  | .withWorkingDirectory => f.withWorkingDirectory w
  | .withUserHome => f.withUserHome w
  | .withUserConfig => f.withUserConfig w
  | .withUserPreferences => f.withUserPreferences w
  | .withAppConfig app => f.withAppConfig w app
  | .withAppHome app => f.withAppHome w app
  | .withPath p => f.withPath w p

/-- The folder a call adds, if it adds one: nothing at all but `with_folder` works without the user's base directories. -/
def BuilderCall.folder? (w : World) : BuilderCall → Option OsStr
  | .withFolder p => some p
  | .withWorkingDirectory | .withOsDirectory .workingDirectory => w.baseDirs.bind fun _ => w.cwd
  | .withUserHome | .withOsDirectory .userHome => w.baseDirs.map fun d => d.home
  | .withUserConfig | .withOsDirectory .userConfig => w.baseDirs.map fun d => d.config
  | .withUserPreferences | .withOsDirectory .userPreferences => w.baseDirs.map fun d => d.preference
  | .withAppConfig app | .withOsDirectory (.appConfig app) => w.baseDirs.map fun d => pathJoin d.config (os app)
  | .withAppHome app | .withOsDirectory (.appHome app) => w.baseDirs.map fun d => pathJoin d.home (os app)
  | .withPath p | .withOsDirectory (.path p) => w.baseDirs.map fun _ => os p
  | _ => none

/-- The extensions a call adds. -/
def BuilderCall.extensions (b : Build) : BuilderCall → List String
  | .withExtension e => [e]
  | .withToml => ["toml"]
  | .withJson => ["json"]
  | .withSupportedExtensions => (if b.toml then ["toml"] else []) ++ (if b.json then ["json"] else [])
  | _ => []

theorem builder_step (b : Build) (w : World) (f : FileFinder) (c : BuilderCall) :
    (c.apply b w f).folders = f.folders ++ (c.folder? w).toList ∧ (c.apply b w f).extensions = f.extensions ++ c.extensions b ∧
      (c.apply b w f).fileName = f.fileName := by
  have hos : ∀ (d : OSDirectory) (o : Option OsStr), d.toPathBuf w = o →
      (f.withOsDirectory w d).folders = f.folders ++ o.toList ∧ (f.withOsDirectory w d).extensions = f.extensions ++ [] ∧
      (f.withOsDirectory w d).fileName = f.fileName := by
    rintro d o rfl
    unfold FileFinder.withOsDirectory
    cases d.toPathBuf w <;> simp
  cases c with
  | withFolder p => simp [BuilderCall.apply, BuilderCall.folder?, BuilderCall.extensions, FileFinder.withFolder]
  | withExtension e => simp [BuilderCall.apply, BuilderCall.folder?, BuilderCall.extensions, FileFinder.withExtension]
  | withToml => simp [BuilderCall.apply, BuilderCall.folder?, BuilderCall.extensions, FileFinder.withToml, FileFinder.withExtension, FileExtension.asStr]
  | withJson => simp [BuilderCall.apply, BuilderCall.folder?, BuilderCall.extensions, FileFinder.withJson, FileFinder.withExtension, FileExtension.asStr]
  | withSupportedExtensions =>
    cases ht : b.toml <;> cases hj : b.json <;>
      simp [BuilderCall.apply, BuilderCall.folder?, BuilderCall.extensions, FileFinder.withSupportedExtensions, ht, hj, FileFinder.withToml,
        FileFinder.withJson, FileFinder.withExtension, FileExtension.asStr]
  | withOsDirectory d =>
    apply hos
    cases d <;> (cases hb : w.baseDirs <;> simp [OSDirectory.toPathBuf, BuilderCall.folder?, hb])
  | withWorkingDirectory => apply hos; cases hb : w.baseDirs <;> simp [OSDirectory.toPathBuf, BuilderCall.folder?, hb]
  | withUserHome => apply hos; cases hb : w.baseDirs <;> simp [OSDirectory.toPathBuf, BuilderCall.folder?, hb]
  | withUserConfig => apply hos; cases hb : w.baseDirs <;> simp [OSDirectory.toPathBuf, BuilderCall.folder?, hb]
  | withUserPreferences => apply hos; cases hb : w.baseDirs <;> simp [OSDirectory.toPathBuf, BuilderCall.folder?, hb]
  | withAppConfig app => apply hos; cases hb : w.baseDirs <;> simp [OSDirectory.toPathBuf, BuilderCall.folder?, hb]
  | withAppHome app => apply hos; cases hb : w.baseDirs <;> simp [OSDirectory.toPathBuf, BuilderCall.folder?, hb]
  | withPath p => apply hos; cases hb : w.baseDirs <;> simp [OSDirectory.toPathBuf, BuilderCall.folder?, hb]

/-- **C52.** After any sequence of builder calls the finder searches exactly the folders that resolved, in the
order of the calls, for exactly the extensions given, in the order of the calls, under the given name. -/
theorem C52_builder (b : Build) (w : World) (name : String) (calls : List BuilderCall) :
    let f := calls.foldl (BuilderCall.apply b w) (FileFinder.new name)
    f.folders = calls.filterMap (BuilderCall.folder? w) ∧ f.extensions = calls.flatMap (BuilderCall.extensions b) ∧
      f.fileName = name ∧ f.getFileName = name := by
  suffices ∀ f : FileFinder, let g := calls.foldl (BuilderCall.apply b w) f
      g.folders = f.folders ++ calls.filterMap (BuilderCall.folder? w) ∧
      g.extensions = f.extensions ++ calls.flatMap (BuilderCall.extensions b) ∧ g.fileName = f.fileName by
    have := this (FileFinder.new name)
    simpa [FileFinder.new, FileFinder.getFileName] using this
  induction calls with
  | nil => intro f; simp
  | cons c calls ih =>
    intro f
    obtain ⟨h1, h2, h3⟩ := ih (c.apply b w f)
    obtain ⟨k1, k2, k3⟩ := builder_step b w f c
    simp only [List.foldl_cons]
    rw [h1, h2, h3, k1, k2, k3, List.filterMap_cons, List.flatMap_cons]
    cases c.folder? w <;> simp

/-- **C52.** What each directory resolves to when the user's base directories are known. -/
theorem C52_resolves (w : World) (dirs : BaseDirs) (hw : w.baseDirs = some dirs) (app : String) (p : String) :
    OSDirectory.userHome.toPathBuf w = some dirs.home ∧
    OSDirectory.userConfig.toPathBuf w = some dirs.config ∧
    OSDirectory.userPreferences.toPathBuf w = some dirs.preference ∧
    OSDirectory.workingDirectory.toPathBuf w = w.cwd ∧
    (OSDirectory.appHome app).toPathBuf w = some (pathJoin dirs.home (os app)) ∧
    (OSDirectory.appConfig app).toPathBuf w = some (pathJoin dirs.config (os app)) ∧
    (OSDirectory.path p).toPathBuf w = some (os p) := by
  simp [OSDirectory.toPathBuf, hw]

example : (OSDirectory.appConfig "app").toPathBuf { exWorld with baseDirs := some ⟨os "/h", os "/h/.config", os "/h/pref"⟩ } =
      some (os "/h/.config/app") ∧
    OSDirectory.userPreferences.toPathBuf { exWorld with baseDirs := some ⟨os "/h", os "/h/.config", os "/h/pref"⟩ } =
      some (os "/h/pref") :=
  ⟨((C52_resolves _ _ rfl "app" "").2.2.2.2.2.1).trans (by decide),
   (C52_resolves { exWorld with baseDirs := some ⟨os "/h", os "/h/.config", os "/h/pref"⟩ } _ rfl "app" "").2.2.1⟩

/-- **C52.** When the user's base directories are not known, no `OSDirectory` resolves, not even the working
directory or an explicit path, so that a finder built from them alone has no folder and every search fails. -/
theorem C52_no_base_dirs (w : World) (hw : w.baseDirs = none) (b : Build) (name : String) (ds : List OSDirectory)
    (am : Bool) :
    (∀ d : OSDirectory, d.toPathBuf w = none) ∧
    findFirst b w (ds.foldl (FileFinder.withOsDirectory w) ((FileFinder.new name).withSupportedExtensions b)) am =
      .err (.fileFinderError .noFoldersDefined) := by
  have h : ∀ d : OSDirectory, d.toPathBuf w = none := fun d => by simp [OSDirectory.toPathBuf, hw]
  refine ⟨h, ?_⟩
  apply ((C49_validation b w _ am).1 ?_).1
  have hfold : ∀ (ds : List OSDirectory) (f : FileFinder), ds.foldl (FileFinder.withOsDirectory w) f = f := by
    intro ds
    induction ds with
    | nil => intro f; rfl
    | cons d ds ih => intro f; simp [FileFinder.withOsDirectory, h, ih]
  rw [hfold]
  unfold FileFinder.withSupportedExtensions
  split <;> split <;> rfl

example : findFirst exBuild exWorld
    ([OSDirectory.userHome, .appConfig "app", .path "/etc"].foldl (FileFinder.withOsDirectory exWorld)
      ((FileFinder.new "conf").withSupportedExtensions exBuild)) true = .err (.fileFinderError .noFoldersDefined) :=
  (C52_no_base_dirs exWorld rfl exBuild "conf" _ true).2

/-- **C52.** `with_supported_extensions` adds `toml`, then `json`, each if its feature is on. -/
theorem C52_supported (b : Build) (f : FileFinder) :
    (f.withSupportedExtensions b).extensions =
      f.extensions ++ (if b.toml then ["toml"] else []) ++ (if b.json then ["json"] else []) ∧
    (f.withSupportedExtensions b).folders = f.folders ∧ (f.withSupportedExtensions b).fileName = f.fileName := by
  cases ht : b.toml <;> cases hj : b.json <;>
    simp [FileFinder.withSupportedExtensions, ht, hj, FileFinder.withToml, FileFinder.withJson,
      FileFinder.withExtension, FileExtension.asStr]

example : (BuilderCall.apply exBuild { exWorld with cwd := some (os "/w"), baseDirs := some ⟨os "/h", os "/h/.config", []⟩ }
    (FileFinder.new "n") (.withOsDirectory (.appConfig "app"))).folders = [os "/h/.config/app"] := by decide

/-! ## C53 -/

/-- The same result but for the index. -/
def SameHit (r r' : FindResult) : Prop := r.path = r'.path ∧ r.extension = r'.extension ∧ r.exists' = r'.exists'

theorem sameHit_of {b : Build} {w : World} {c : OsStr × String} {i j : Nat} {r r' : FindResult}
    (h : Reports b w c i r) (h' : Reports b w c j r') : SameHit r r' :=
  ⟨h.1.trans h'.1.symm, h.2.2.2.trans h'.2.2.2.symm, h.2.1.trans h'.2.1.symm⟩

theorem filter_head {α : Type} (p : α → Bool) (l : List α) (i : Nat) (c : α) (hi : l[i]? = some c)
    (hc : p c = true) (hn : ∀ (j : Nat) d, j < i → l[j]? = some d → p d = false) :
    (l.filter p)[0]? = some c := by
  rw [split_at hi, List.filter_append, List.filter_cons_of_pos hc]
  have : (l.take i).filter p = [] := by
    rw [List.filter_eq_nil_iff]
    intro x hx
    obtain ⟨j, hj, e⟩ := mem_take_get hx
    simp [hn j x hj e]
  rw [this]; rfl

theorem filter_last {α : Type} (p : α → Bool) (l : List α) (i : Nat) (c : α) (hi : l[i]? = some c)
    (hc : p c = true) (hn : ∀ (j : Nat) d, i < j → l[j]? = some d → p d = false) :
    (l.filter p).getLast? = some c := by
  rw [split_at hi, List.filter_append, List.filter_cons_of_pos hc]
  have : (l.drop (i + 1)).filter p = [] := by
    rw [List.filter_eq_nil_iff]
    intro x hx
    obtain ⟨j, hj, e⟩ := mem_drop_get hx
    simp [hn j x (by omega) e]
  rw [this]; simp

/-- **C53.** When some candidate exists (and there are fewer than `2^16`), `find_all(false)` succeeds,
`find_all_or_first` returns the same, `find_first` returns its first and `find_last` its last element. -/
theorem C53_agree (b : Build) (w : World) (f : FileFinder) (am : Bool) (hf : Ready f)
    (hsmall : (candidates f).length < 65536) (hx : ∃ c ∈ candidates f, w.pathExists c.1 = true) :
    ∃ rs first last r r', findAll b w f false = .ok rs ∧ findAllOrFirst b w f = .ok rs ∧
      rs[0]? = some first ∧ rs.getLast? = some last ∧
      findFirst b w f am = .ok r ∧ findLast b w f am = .ok r' ∧ SameHit r first ∧ SameHit r' last := by
  have hs : (listed w false f).length < 65536 := Nat.lt_of_le_of_lt (List.length_filter_le _ _) hsmall
  obtain ⟨i, c, h1, h2, h3⟩ := exists_first (fun c : OsStr × String => w.pathExists c.1) _ hx
  obtain ⟨i', c', h1', h2', h3'⟩ := exists_last (fun c : OsStr × String => w.pathExists c.1) _ hx
  have hhead : (listed w false f)[0]? = some c := filter_head _ _ i c h1 (by simpa using h2)
    (fun j d hj hd => by simpa using h3 j d hj hd)
  have hlast : (listed w false f).getLast? = some c' := filter_last _ _ i' c' h1' (by simpa using h2')
    (fun j d hj hd => by simpa using h3' j d hj hd)
  have hne : listed w false f ≠ [] := by intro h; rw [h] at hhead; cases hhead
  obtain ⟨rs, e, hl, hr⟩ := (C47_find_all b w f false hf hs).1 hne
  obtain ⟨first, hf1, hf2⟩ := hr 0 c hhead
  obtain ⟨last, hl1, hl2⟩ := hr ((listed w false f).length - 1) c' (by rw [← List.getLast?_eq_getElem?]; exact hlast)
  obtain ⟨r, hr1, hr2⟩ := (C45_find_first b w f am hf).1 i c h1 h2 h3
  obtain ⟨r', hr1', hr2'⟩ := (C46_find_last b w f am hf).1 i' c' h1' h2' h3'
  refine ⟨rs, first, last, r, r', e, ?_, hf1, ?_, hr1, hr1', sameHit_of hr2 hf2, sameHit_of hr2' hl2⟩
  · rw [(C48_find_all_or_first b w f hf).1 hx, e]
  · rw [List.getLast?_eq_getElem?, hl]; exact hl1

example : ∃ rs first last r r', findAll exBuild exWorld exFinder false = .ok rs ∧
    findAllOrFirst exBuild exWorld exFinder = .ok rs ∧ rs[0]? = some first ∧ rs.getLast? = some last ∧
    findFirst exBuild exWorld exFinder true = .ok r ∧ findLast exBuild exWorld exFinder true = .ok r' ∧
    SameHit r first ∧ SameHit r' last :=
  C53_agree exBuild exWorld exFinder true exFinder_ready (by decide) (by decide)

/-- **C53.** `find_all(true)` lists every candidate, once per position, whatever exists; so it lists the result of
every other search. -/
theorem C53_all_true (b : Build) (w : World) (f : FileFinder) (hf : Ready f) (hsmall : (candidates f).length < 65536) :
    ∃ rs, findAll b w f true = .ok rs ∧ rs.map FindResult.path = (candidates f).map Prod.fst ∧
      ∀ r, Returned b w f r → ∃ r' ∈ rs, SameHit r r' := by
  have hl : listed w true f = candidates f := by simp [listed]
  have hs : (listed w true f).length < 65536 := by rw [hl]; exact hsmall
  obtain ⟨rs, e, h1, h2⟩ := (C47_find_all b w f true hf hs).1 (by rw [hl]; exact candidates_ne_nil hf)
  rw [hl] at h1 h2
  refine ⟨rs, e, ?_, fun r hr => ?_⟩
  · apply List.ext_getElem?
    intro i
    rw [List.getElem?_map, List.getElem?_map]
    cases hc : (candidates f)[i]? with
    | none =>
      have : (candidates f).length ≤ i := by simpa using hc
      rw [List.getElem?_eq_none (by omega)]; rfl
    | some c =>
      obtain ⟨r, hr, h3⟩ := h2 i c hc
      rw [hr]; simp [h3.1]
  · obtain ⟨c, hc, i, h3⟩ := returned_reports hf hr
    obtain ⟨j, hj⟩ := List.mem_iff_getElem?.1 hc
    obtain ⟨r', h4, h5⟩ := h2 j c hj
    exact ⟨r', List.mem_of_getElem? h4, sameHit_of h3 h5⟩

example : (candidates exFinder).length < 65536 ∧ ∃ c ∈ candidates exFinder, exWorld.pathExists c.1 = true :=
  ⟨by decide, by decide⟩

end Verif.Props
