import Verif.Lemmas.Race
import Verif.Props.Finder
import Verif.Props.Config
import Verif.Props.Layers
/-!
# C70–C73: the crate among other processes

`ws t` is the world at the moment of the `t`-th look the crate takes at it; between two looks other processes may
have done anything. (What `ws` does after the last look is immaterial, so a condition on all `ws t` is a condition on
the duration of the call.)
-/
namespace Verif.Props
open Spec FileFinder

/-! ## C70: searches -/

theorem findFirstR_eq (b : Build) (ws : Moments) (f : FileFinder) (am : Bool) (hf : Ready f) :
    ∃ look flag, InOrder look flag ∧ findFirstR b ws f am = match firstO b am none (observe ws look flag (candidates f)) with
      | .ret r => .ok r
      | .cont first => if am then
          match first with
          | some r => .ok r
          | none => .err (.fileFinderError .noFilesFound)
        else .err (.fileFinderError .noFilesFound) := by
  obtain ⟨look, flag, h1, -, h3⟩ := first_observed b ws am (candidates f) 0 none
  refine ⟨look, flag, h1, ?_⟩
  rw [findFirstR, validate_ready hf, Outcome.bind_ok, eachFolder_eq _ _ _ hf.noSep, ← candidates_eq]
  cases h : firstO b am none (observe ws look flag (candidates f)) with
  | ret r => rw [h] at h3; simp only at h3; rw [h3]; rfl
  | cont first => rw [h] at h3; obtain ⟨t', h3⟩ := h3; rw [h3]; rfl

theorem observe_split {ws : Moments} {look flag : Nat → Nat} {cs : List (OsStr × String)} {i : Nat} {c : OsStr × String}
    (h : cs[i]? = some c) : observe ws look flag cs = (observe ws look flag cs).take i ++
      (c, (ws (look i)).pathExists c.1, (ws (flag i)).pathExists c.1) :: (observe ws look flag cs).drop (i + 1) :=
  split_at (by rw [observe_get, h]; rfl)

theorem observe_take {ws : Moments} {look flag : Nat → Nat} {cs : List (OsStr × String)} {i : Nat}
    (h : ∀ (j : Nat) d, j < i → cs[j]? = some d → (ws (look j)).pathExists d.1 = false) :
    ∀ x ∈ (observe ws look flag cs).take i, x.2.1 = false := by
  intro x hx
  obtain ⟨j, hj, e⟩ := mem_take_get hx
  rw [observe_get] at e
  obtain ⟨d, hd, rfl⟩ := Option.map_eq_some_iff.1 e
  exact h j d hj hd

theorem observe_drop {ws : Moments} {look flag : Nat → Nat} {cs : List (OsStr × String)} {i : Nat}
    (h : ∀ (j : Nat) d, i < j → cs[j]? = some d → (ws (look j)).pathExists d.1 = false) :
    ∀ x ∈ (observe ws look flag cs).drop (i + 1), x.2.1 = false := by
  intro x hx
  obtain ⟨j, hj, e⟩ := mem_drop_get hx
  rw [observe_get] at e
  obtain ⟨d, hd, rfl⟩ := Option.map_eq_some_iff.1 e
  exact h j d (by omega) hd

theorem observe_all {ws : Moments} {look flag : Nat → Nat} {cs : List (OsStr × String)}
    (h : ∀ (j : Nat) d, cs[j]? = some d → (ws (look j)).pathExists d.1 = false) :
    ∀ x ∈ observe ws look flag cs, x.2.1 = false := by
  intro x hx
  obtain ⟨j, e⟩ := List.mem_iff_getElem?.1 hx
  rw [observe_get] at e
  obtain ⟨d, hd, rfl⟩ := Option.map_eq_some_iff.1 e
  exact h j d hd

/-- **C70.** `find_first` among other processes looks at the candidates one after the other and answers by what it
saw: the first one that was there when looked at; if none was, the very first candidate if missing files are
allowed, `NoFilesFound` otherwise. (The flag of the result comes from a later look.) -/
theorem C70_find_first (b : Build) (ws : Moments) (f : FileFinder) (am : Bool) (hf : Ready f) :
    ∃ look flag, InOrder look flag ∧
    (∀ (i : Nat) c, (candidates f)[i]? = some c → (ws (look i)).pathExists c.1 = true →
      (∀ (j : Nat) d, j < i → (candidates f)[j]? = some d → (ws (look j)).pathExists d.1 = false) →
      ∃ r, findFirstR b ws f am = .ok r ∧ Describes b c 0 ((ws (flag i)).pathExists c.1) r) ∧
    ((∀ (j : Nat) d, (candidates f)[j]? = some d → (ws (look j)).pathExists d.1 = false) →
      (am = true → ∃ c r, (candidates f)[0]? = some c ∧ findFirstR b ws f am = .ok r ∧
        Describes b c 0 ((ws (flag 0)).pathExists c.1) r) ∧
      (am = false → findFirstR b ws f am = .err (.fileFinderError .noFilesFound))) := by
  obtain ⟨look, flag, h1, h2⟩ := findFirstR_eq b ws f am hf
  refine ⟨look, flag, h1, ?_, ?_⟩
  · intro i c hi hc hn
    refine ⟨_, ?_, resO_describes b (c, true, (ws (flag i)).pathExists c.1)⟩
    rw [h2, observe_split hi, firstO_hit (observe_take hn) hc, hc]
  · intro hn
    rw [h2, firstO_miss (observe_all hn)]
    constructor
    · rintro rfl
      obtain ⟨c, cs, e⟩ := List.exists_cons_of_ne_nil (candidates_ne_nil hf)
      refine ⟨c, resO b (c, (ws (look 0)).pathExists c.1, (ws (flag 0)).pathExists c.1), by rw [e]; rfl, ?_, resO_describes b _⟩
      rw [e]; rfl
    · rintro rfl; simp

theorem findLastR_eq (b : Build) (ws : Moments) (f : FileFinder) (am : Bool) (hf : Ready f) :
    ∃ look flag, InOrder look flag ∧ findLastR b ws f am =
      match (lastO b am (none, none) (observe ws look flag (candidates f))).1 with
      | some r => .ok r
      | none => if am then
          match (lastO b am (none, none) (observe ws look flag (candidates f))).2 with
          | some r => .ok r
          | none => .err (.fileFinderError .noFilesFound)
        else .err (.fileFinderError .noFilesFound) := by
  obtain ⟨look, flag, h1, -, t', h3⟩ := last_observed b ws am (candidates f) 0 (none, none)
  refine ⟨look, flag, h1, ?_⟩
  rw [findLastR, validate_ready hf, Outcome.bind_ok, eachFolder_eq _ _ _ hf.noSep, ← candidates_eq, h3]
  rfl

/-- **C70.** `find_last` among other processes: the last candidate that was there when looked at; if none was, the
very last candidate if missing files are allowed, `NoFilesFound` otherwise. -/
theorem C70_find_last (b : Build) (ws : Moments) (f : FileFinder) (am : Bool) (hf : Ready f) :
    ∃ look flag, InOrder look flag ∧
    (∀ (i : Nat) c, (candidates f)[i]? = some c → (ws (look i)).pathExists c.1 = true →
      (∀ (j : Nat) d, i < j → (candidates f)[j]? = some d → (ws (look j)).pathExists d.1 = false) →
      ∃ r, findLastR b ws f am = .ok r ∧ Describes b c 0 ((ws (flag i)).pathExists c.1) r) ∧
    ((∀ (j : Nat) d, (candidates f)[j]? = some d → (ws (look j)).pathExists d.1 = false) →
      (am = true → ∃ c r, (candidates f)[(candidates f).length - 1]? = some c ∧ findLastR b ws f am = .ok r ∧
        Describes b c 0 ((ws (flag ((candidates f).length - 1))).pathExists c.1) r) ∧
      (am = false → findLastR b ws f am = .err (.fileFinderError .noFilesFound))) := by
  obtain ⟨look, flag, h1, h2⟩ := findLastR_eq b ws f am hf
  refine ⟨look, flag, h1, ?_, ?_⟩
  · intro i c hi hc hn
    refine ⟨_, ?_, resO_describes b (c, true, (ws (flag i)).pathExists c.1)⟩
    have h : (lastO b am (none, none) (observe ws look flag (candidates f))).1 =
        some (resO b (c, true, (ws (flag i)).pathExists c.1)) := by
      rw [observe_split hi, lastO_hit (observe_drop hn) hc, hc]
    rw [h2, h]
  · intro hn
    have hne := candidates_ne_nil hf
    have hlen : (candidates f).length - 1 < (candidates f).length := by
      have := List.length_pos_iff.2 hne; omega
    obtain ⟨c, hc⟩ : ∃ c, (candidates f)[(candidates f).length - 1]? = some c := ⟨_, List.getElem?_eq_getElem hlen⟩
    have hl : (observe ws look flag (candidates f)).getLast? =
        some (c, (ws (look ((candidates f).length - 1))).pathExists c.1, (ws (flag ((candidates f).length - 1))).pathExists c.1) := by
      rw [List.getLast?_eq_getElem?, observe_length, observe_get, hc]; rfl
    have hone : observe ws look flag (candidates f) ≠ [] := by
      intro h; have := congrArg List.length h; rw [observe_length] at this; simp at this; exact hne this
    rw [h2, lastO_miss (observe_all hn)]
    constructor
    · rintro rfl
      refine ⟨c, _, hc, ?_, resO_describes b (c, (ws (look ((candidates f).length - 1))).pathExists c.1, (ws (flag ((candidates f).length - 1))).pathExists c.1)⟩
      simp [hone, hl]
    · rintro rfl; simp

theorem observe_zip (ws : Moments) (look flag : Nat → Nat) (cs : List (OsStr × String)) :
    observe ws look flag cs =
      cs.zipIdx.map fun x => (x.1, (ws (look x.2)).pathExists x.1.1, (ws (flag x.2)).pathExists x.1.1) := by
  apply List.ext_getElem?
  intro i
  rw [observe_get, List.getElem?_map, List.getElem?_zipIdx]
  cases cs[i]? <;> simp

theorem observe_filter (ws : Moments) (look flag : Nat → Nat) (am : Bool) (cs : List (OsStr × String)) :
    (observe ws look flag cs).filter (hitO am) = (seenAt ws look am cs).map fun x =>
      (x.2, (ws (look x.1)).pathExists x.2.1, (ws (flag x.1)).pathExists x.2.1) := by
  rw [observe_zip, seenAt, List.filter_map, List.filter_map, List.map_map]
  rfl

theorem numbered_get (b : Build) (obs : List Obs) (k : Nat) (o : Obs) (h : obs[k]? = some o) :
    (obs.zipIdx.map (fun x => (resO b x.1).withIndex ((0 + x.2) % 65536)))[k]? = some ((resO b o).withIndex (k % 65536)) := by
  rw [List.getElem?_map, List.getElem?_zipIdx, h]
  simp

theorem listsSeen_number (b : Build) (ws : Moments) (look flag : Nat → Nat) (seen : List (Nat × (OsStr × String))) :
    ListsSeen b ws flag seen ((seen.map fun x =>
      ((x.2, (ws (look x.1)).pathExists x.2.1, (ws (flag x.1)).pathExists x.2.1) : Obs)).zipIdx.map
        (fun x => (resO b x.1).withIndex ((0 + x.2) % 65536))) := by
  refine ⟨by simp, fun k i c h => ?_⟩
  refine ⟨_, numbered_get b _ k (c, (ws (look i)).pathExists c.1, (ws (flag i)).pathExists c.1) ?_, rfl, rfl, rfl, rfl⟩
  rw [List.getElem?_map, h]; rfl

theorem findAllR_eq (b : Build) (ws : Moments) (f : FileFinder) (am : Bool) (hf : Ready f) :
    ∃ look flag, InOrder look flag ∧ findAllR b ws f am =
      (numberO b ([], 0) ((observe ws look flag (candidates f)).filter (hitO am)) >>= fun st =>
        if st.1.isEmpty then .err (.fileFinderError .noFilesFound) else .ok st.1) := by
  obtain ⟨look, flag, h1, -, h3⟩ := all_observed b ws am (candidates f) 0 ([], 0)
  refine ⟨look, flag, h1, ?_⟩
  rw [findAllR, validate_ready hf, Outcome.bind_ok, eachFolder_eq _ _ _ hf.noSep, ← candidates_eq]
  cases h : numberO b ([], 0) ((observe ws look flag (candidates f)).filter (hitO am)) with
  | ok st => rw [h] at h3; obtain ⟨t', h3⟩ := h3; rw [h3]; rfl
  | err e => rw [h] at h3; simp only at h3; rw [h3]; rfl
  | panic => rw [h] at h3; simp only at h3; rw [h3]; rfl

/-- **C70.** `find_all` among other processes lists exactly the candidates that were there when looked at (all of
them if missing files are allowed), in order and numbered; `NoFilesFound` exactly if none was; the number
overflows as without other processes. -/
theorem C70_find_all (b : Build) (ws : Moments) (f : FileFinder) (am : Bool) (hf : Ready f) :
    ∃ look flag, InOrder look flag ∧
    (seenAt ws look am (candidates f) = [] → findAllR b ws f am = .err (.fileFinderError .noFilesFound)) ∧
    (seenAt ws look am (candidates f) ≠ [] →
      b.overflowChecks = false ∨ (seenAt ws look am (candidates f)).length < 65536 →
      ∃ rs, findAllR b ws f am = .ok rs ∧ ListsSeen b ws flag (seenAt ws look am (candidates f)) rs) ∧
    (b.overflowChecks = true → 65536 ≤ (seenAt ws look am (candidates f)).length → findAllR b ws f am = .panic) := by
  obtain ⟨look, flag, h1, h2⟩ := findAllR_eq b ws f am hf
  rw [observe_filter] at h2
  refine ⟨look, flag, h1, ?_, ?_, ?_⟩
  · intro h
    rw [h2, h]; rfl
  · intro hne ho
    obtain ⟨j, hj⟩ := (numberO_cases b ((seenAt ws look am (candidates f)).map fun x =>
      ((x.2, (ws (look x.1)).pathExists x.2.1, (ws (flag x.1)).pathExists x.2.1) : Obs)) [] 0 (by decide)).1 (by simpa using ho)
    refine ⟨_, ?_, listsSeen_number b ws look flag _⟩
    rw [h2, hj]
    simp [hne]
  · intro hb hbig
    rw [h2, (numberO_cases b ((seenAt ws look am (candidates f)).map fun x =>
      ((x.2, (ws (look x.1)).pathExists x.2.1, (ws (flag x.1)).pathExists x.2.1) : Obs)) [] 0 (by decide)).2 hb (by simpa using hbig)]
    rfl

theorem findAllOrFirstR_eq (b : Build) (ws : Moments) (f : FileFinder) (hf : Ready f) :
    ∃ look flag, InOrder look flag ∧ findAllOrFirstR b ws f =
      (aofO b ⟨[], none, 0⟩ (observe ws look flag (candidates f)) >>= fun st =>
        if st.files.isEmpty then
          match st.first with
          | some r => .ok (st.files ++ [r.withIndex 0])
          | none => .err (.fileFinderError .noFilesFound)
        else .ok st.files) := by
  obtain ⟨look, flag, h1, -, h3⟩ := aof_observed b ws (candidates f) 0 ⟨[], none, 0⟩
  refine ⟨look, flag, h1, ?_⟩
  rw [findAllOrFirstR, validate_ready hf, Outcome.bind_ok, eachFolder_eq _ _ _ hf.noSep, ← candidates_eq]
  cases h : aofO b ⟨[], none, 0⟩ (observe ws look flag (candidates f)) with
  | ok st => rw [h] at h3; obtain ⟨t', h3⟩ := h3; rw [h3]; rfl
  | err e => rw [h] at h3; simp only at h3; rw [h3]; rfl
  | panic => rw [h] at h3; simp only at h3; rw [h3]; rfl

/-- **C70.** `find_all_or_first` among other processes lists the candidates that were there when looked at; if none
was, exactly the first candidate. It never fails. -/
theorem C70_find_all_or_first (b : Build) (ws : Moments) (f : FileFinder) (hf : Ready f) :
    ∃ look flag, InOrder look flag ∧
    (seenAt ws look false (candidates f) = [] → ∃ c r, (candidates f)[0]? = some c ∧ findAllOrFirstR b ws f = .ok [r] ∧
      Describes b c 0 ((ws (flag 0)).pathExists c.1) r) ∧
    (seenAt ws look false (candidates f) ≠ [] →
      b.overflowChecks = false ∨ (seenAt ws look false (candidates f)).length < 65536 →
      ∃ rs, findAllOrFirstR b ws f = .ok rs ∧ ListsSeen b ws flag (seenAt ws look false (candidates f)) rs) ∧
    (b.overflowChecks = true → 65536 ≤ (seenAt ws look false (candidates f)).length → findAllOrFirstR b ws f = .panic) := by
  obtain ⟨look, flag, h1, h2⟩ := findAllOrFirstR_eq b ws f hf
  refine ⟨look, flag, h1, ?_, ?_, ?_⟩
  · intro h
    have hm : ∀ x ∈ observe ws look flag (candidates f), x.2.1 = false := by
      have h' := observe_filter ws look flag false (candidates f)
      rw [h, List.map_nil, List.filter_eq_nil_iff] at h'
      intro x hx
      simpa [hitO] using h' x hx
    obtain ⟨c, cs, e⟩ := List.exists_cons_of_ne_nil (candidates_ne_nil hf)
    refine ⟨c, (resO b (c, (ws (look 0)).pathExists c.1, (ws (flag 0)).pathExists c.1)).withIndex 0, by rw [e]; rfl, ?_, rfl, rfl, rfl, rfl⟩
    rw [h2, aofO_miss hm rfl, e]
    rfl
  · intro hne ho
    obtain ⟨fi, hfi⟩ := aofO_files b (observe ws look flag (candidates f)) ⟨[], none, 0⟩
    rw [observe_filter] at hfi
    obtain ⟨j, hj⟩ := (numberO_cases b ((seenAt ws look false (candidates f)).map fun x =>
      ((x.2, (ws (look x.1)).pathExists x.2.1, (ws (flag x.1)).pathExists x.2.1) : Obs)) [] 0 (by decide)).1 (by simpa using ho)
    refine ⟨_, ?_, listsSeen_number b ws look flag _⟩
    simp only at hfi
    rw [h2, hfi, hj]
    simp [hne]
  · intro hb hbig
    obtain ⟨fi, hfi⟩ := aofO_files b (observe ws look flag (candidates f)) ⟨[], none, 0⟩
    rw [observe_filter] at hfi
    simp only at hfi
    rw [h2, hfi, (numberO_cases b ((seenAt ws look false (candidates f)).map fun x =>
      ((x.2, (ws (look x.1)).pathExists x.2.1, (ws (flag x.1)).pathExists x.2.1) : Obs)) [] 0 (by decide)).2 hb (by simpa using hbig)]
    rfl

/-- **C70.** If nobody creates or removes a candidate during the call, whatever else happens, the searches answer as
if they were alone. -/
theorem C70_undisturbed (b : Build) (ws : Moments) (w : World) (f : FileFinder) (am : Bool) (hf : Ready f)
    (h : ∀ t, ∀ c ∈ candidates f, (ws t).pathExists c.1 = w.pathExists c.1) :
    findFirstR b ws f am = findFirst b w f am ∧ findLastR b ws f am = findLast b w f am ∧
    findAllR b ws f am = findAll b w f am ∧ findAllOrFirstR b ws f = findAllOrFirst b w f := by
  refine ⟨?_, ?_, ?_, ?_⟩
  · obtain ⟨look, flag, -, h2⟩ := findFirstR_eq b ws f am hf
    rw [h2, observe_const ws w _ h, firstO_const, findFirst_eq b w f am hf]
    rfl
  · obtain ⟨look, flag, -, h2⟩ := findLastR_eq b ws f am hf
    rw [h2, observe_const ws w _ h, lastO_const, findLast_eq b w f am hf]
    rfl
  · obtain ⟨look, flag, -, h2⟩ := findAllR_eq b ws f am hf
    rw [h2, observe_const ws w _ h, numberO_const, findAll_eq b w f am hf]
  · obtain ⟨look, flag, -, h2⟩ := findAllOrFirstR_eq b ws f hf
    rw [h2, observe_const ws w _ h, aofO_const, findAllOrFirst, validate_ready hf, Outcome.bind_ok,
      findAllOrFirstFolders_eq b w _ _ hf.noSep, candidates_eq]
    rfl

/-- **C70.** A candidate that is there all the time is not overlooked: `find_first` succeeds with it or an earlier
candidate, `find_last` with it or a later one. -/
theorem C70_persistent (b : Build) (ws : Moments) (f : FileFinder) (am : Bool) (hf : Ready f) (i : Nat) (c : OsStr × String)
    (hc : (candidates f)[i]? = some c) (h : ∀ t, (ws t).pathExists c.1 = true) :
    (∃ r j d, findFirstR b ws f am = .ok r ∧ j ≤ i ∧ (candidates f)[j]? = some d ∧ r.path = d.1 ∧
      ∃ t, (ws t).pathExists d.1 = true) ∧
    (∃ r j d, findLastR b ws f am = .ok r ∧ i ≤ j ∧ (candidates f)[j]? = some d ∧ r.path = d.1 ∧
      ∃ t, (ws t).pathExists d.1 = true) := by
  constructor
  · obtain ⟨look, flag, -, h2, -⟩ := C70_find_first b ws f am hf
    -- the first position seen
    have hP : ∃ j, ∃ d, (candidates f)[j]? = some d ∧ (ws (look j)).pathExists d.1 = true := ⟨i, c, hc, h _⟩
    classical
    obtain ⟨d, hd, hs⟩ := Nat.find_spec hP
    obtain ⟨r, hr, hd'⟩ := h2 _ d hd hs (fun j e hj he => by
      by_contra hne
      exact Nat.find_min hP hj ⟨e, he, by simpa using hne⟩)
    exact ⟨r, _, d, hr, Nat.find_min' hP ⟨c, hc, h _⟩, hd, hd'.1, _, hs⟩
  · obtain ⟨look, flag, -, h2, -⟩ := C70_find_last b ws f am hf
    -- the last position seen, by counting from the end
    have hlen : i < (candidates f).length := (List.getElem?_eq_some_iff.1 hc).1
    have hP : ∃ k, k < (candidates f).length ∧ ∃ d, (candidates f)[(candidates f).length - 1 - k]? = some d ∧
        (ws (look ((candidates f).length - 1 - k))).pathExists d.1 = true :=
      ⟨(candidates f).length - 1 - i, by omega, c, by rw [show (candidates f).length - 1 - ((candidates f).length - 1 - i) = i by omega]; exact ⟨hc, h _⟩⟩
    classical
    obtain ⟨hk, d, hd, hs⟩ := Nat.find_spec hP
    obtain ⟨r, hr, hd'⟩ := h2 _ d hd hs (fun j e hj he => by
      by_contra hne
      have hj2 := (List.getElem?_eq_some_iff.1 he).1
      refine Nat.find_min hP (m := (candidates f).length - 1 - j) (by omega) ⟨by omega, e, ?_⟩
      rw [show (candidates f).length - 1 - ((candidates f).length - 1 - j) = j by omega]
      exact ⟨he, by simpa using hne⟩)
    have hle : Nat.find hP ≤ (candidates f).length - 1 - i := Nat.find_min' hP ⟨by omega, c, by
      rw [show (candidates f).length - 1 - ((candidates f).length - 1 - i) = i by omega]; exact ⟨hc, h _⟩⟩
    exact ⟨r, _, d, hr, by omega, hd, hd'.1, _, hs⟩

/-- **C70** at work: the file `/b/conf.json` is there all the time, `/a/conf.toml` comes and goes. -/
def exFlicker : Moments := fun t =>
  { exWorld with locate := fun p => if p = os "/b/conf.json" then 1 else if p = os "/a/conf.toml" ∧ t % 2 = 1 then 1 else 0 }

theorem exFlicker_there (t : Nat) : (exFlicker t).pathExists (os "/b/conf.json") = true := rfl

example : ∃ r j d, findFirstR exBuild exFlicker exFinder false = .ok r ∧ j ≤ 3 ∧ (candidates exFinder)[j]? = some d ∧ r.path = d.1 ∧
    ∃ t, (exFlicker t).pathExists d.1 = true :=
  (C70_persistent exBuild exFlicker exFinder false exFinder_ready 3 (os "/b/conf.json", "json") (by decide) exFlicker_there).1

/-- A search among the flickering files always finds something: each kind of search, in terms of what it saw. -/
example : ∃ look flag, InOrder look flag ∧
    ((exFlicker (look 0)).pathExists (os "/a/conf.toml") = true → ∃ r, findFirstR exBuild exFlicker exFinder false = .ok r ∧
      r.path = os "/a/conf.toml") := by
  obtain ⟨look, flag, h1, h2, -⟩ := C70_find_first exBuild exFlicker exFinder false exFinder_ready
  refine ⟨look, flag, h1, fun h => ?_⟩
  obtain ⟨r, h3, h4, -⟩ := h2 0 (os "/a/conf.toml", "toml") (by decide) h (by intro j d hj; omega)
  exact ⟨r, h3, h4⟩
example : ∃ look flag, InOrder look flag ∧ ∃ r, findLastR exBuild exFlicker exFinder false = .ok r ∧ r.path = os "/b/conf.json" := by
  obtain ⟨look, flag, h1, h2, -⟩ := C70_find_last exBuild exFlicker exFinder false exFinder_ready
  obtain ⟨r, h3, h4, -⟩ := h2 3 (os "/b/conf.json", "json") (by decide) (exFlicker_there _) (by
    intro j d hj hd
    have := (List.getElem?_eq_some_iff.1 hd).1
    have e : (candidates exFinder).length = 4 := by decide
    omega)
  exact ⟨look, flag, h1, r, h3, h4⟩

/-- All files, missing ones allowed: four results. -/
example : ∃ rs, findAllR exBuild exFlicker exFinder true = .ok rs ∧ rs.length = 4 := by
  obtain ⟨look, flag, -, -, h2, -⟩ := C70_find_all exBuild exFlicker exFinder true exFinder_ready
  have e : seenAt exFlicker look true (candidates exFinder) =
      (candidates exFinder).zipIdx.map fun x => (x.2, x.1) := by simp [seenAt]
  have e4 : (seenAt exFlicker look true (candidates exFinder)).length = 4 := by rw [e]; decide
  obtain ⟨rs, h3, h4, -⟩ := h2 (by intro h; rw [h] at e4; cases e4) (Or.inr (by omega))
  exact ⟨rs, h3, h4.trans e4⟩

/-- Existing files or else the first: something is listed, since one file is there all the time. -/
example : ∃ rs, findAllOrFirstR exBuild exFlicker exFinder = .ok rs ∧ rs ≠ [] := by
  obtain ⟨look, flag, -, -, h2, -⟩ := C70_find_all_or_first exBuild exFlicker exFinder exFinder_ready
  have hm : (3, (os "/b/conf.json", "json")) ∈ seenAt exFlicker look false (candidates exFinder) := by
    refine List.mem_filter.2 ⟨by decide, ?_⟩
    exact (Bool.false_or _).trans (exFlicker_there _)
  have hle : (seenAt exFlicker look false (candidates exFinder)).length ≤ 4 := by
    refine (List.length_filter_le _ _).trans ?_
    rw [List.length_map, List.length_zipIdx]
    decide
  obtain ⟨rs, h3, h4, -⟩ := h2 (List.ne_nil_of_mem hm) (Or.inr (by omega))
  refine ⟨rs, h3, fun e => ?_⟩
  rw [e] at h4
  exact List.ne_nil_of_mem hm (List.length_eq_zero_iff.1 h4.symm)

/-- Changes elsewhere on the disk do not matter. -/
example : findFirstR exBuild (fun t => { exWorld with env := if t = 1 then [(os "a", os "b")] else [] }) exFinder true =
    findFirst exBuild exWorld exFinder true :=
  (C70_undisturbed exBuild _ exWorld exFinder true exFinder_ready (fun _ _ _ => rfl)).1

/-- **C70**, the defect: `find_first(false)` can report a file as not existing (it vanished between the two looks),
and `find_first(true)` can report the missing candidate as existing. -/
theorem C70_flag_may_contradict :
    (∃ (b : Build) (ws : Moments) (f : FileFinder) (r : FindResult), Ready f ∧ findFirstR b ws f false = .ok r ∧ r.exists' = false) ∧
    (∃ (b : Build) (ws : Moments) (f : FileFinder) (r : FindResult), Ready f ∧ findFirstR b ws f true = .ok r ∧ r.exists' = true ∧
      ∀ (i : Nat) (c : OsStr × String), (candidates f)[i]? = some c → ∃ t, (ws t).pathExists c.1 = false) := by
  let gone : World := { exWorld with disk := fun _ => .absent none }
  let there : World := { exWorld with disk := fun _ => .file [] none none }
  constructor
  · exact ⟨exBuild, fun t => if t = 0 then there else gone, exFinder, _, exFinder_ready, rfl, rfl⟩
  · refine ⟨exBuild, fun t => if t = 1 then there else gone, exFinder, _, exFinder_ready, rfl, rfl, ?_⟩
    intro i c _
    exact ⟨0, rfl⟩

/-- A search during which the only file is replaced by an earlier candidate finds neither. -/
example : ∃ ws : Moments, findFirstR exBuild ws exFinder false = .err (.fileFinderError .noFilesFound) ∧
    ∀ t, ∃ c ∈ candidates exFinder, (ws t).pathExists c.1 = true := by
  refine ⟨fun t => if t < 3 then exWorld else { exWorld with locate := fun p => if p = os "/a/conf.toml" then 1 else 0 }, rfl, ?_⟩
  intro t
  by_cases ht : t < 3
  · exact ⟨(os "/b/conf.json", "json"), by decide, by simp [ht]; decide⟩
  · exact ⟨(os "/a/conf.toml", "toml"), by decide, by simp [ht]; decide⟩

/-! ## C71: building a value -/

/-- The loop of `build_value` over the layers themselves, layer by layer at two moments each. -/
def buildListR (ws : Moments) (t : Nat) (skip : Bool) (value : Value) : List (String × Layer) → Except BakuninError Value
  | [] => .ok value
  | e :: ls =>
    match e.2.readValueR (ws t) (ws (t + 1)) with
    | .error x => if skip then buildListR ws (t + 2) skip value ls else .error x
    | .ok v => buildListR ws (t + 2) skip (value.merge v) ls

theorem buildLoopR_eq (ws : Moments) (c : Config) (skip : Bool) (ls : List (String × Layer)) :
    ∀ t value, (∀ e ∈ ls, hmGet c.layers e.1 = some e.2) →
      Config.buildLoopR ws t c skip value (ls.map Prod.fst) = buildListR ws t skip value ls := by
  induction ls with
  | nil => intro t value _; rfl
  | cons e ls ih =>
    intro t value h
    rw [List.map_cons, Config.buildLoopR, h e (by simp), buildListR]
    have ih := fun t value => ih t value (fun x hx => h x (by simp [hx]))
    simp only []
    cases e.2.readValueR (ws t) (ws (t + 1)) with
    | error x => cases skip <;> simp [ih]
    | ok v => simp [ih]

theorem buildValueR_is {ws : Moments} {c : Config} {ls : List (String × Layer)} (h : Is c ls) (skip : Bool) :
    c.buildValueR ws skip = buildListR ws 0 skip Value.newMap ls := by
  obtain ⟨h1, h2, h3⟩ := h
  unfold Config.buildValueR
  rw [h2]
  apply buildLoopR_eq
  intro e he
  rw [h1]; exact hmGet_of_mem' h3 he

theorem offers_layers (b : Build) (fm : Formats) (ms : List (String × Layer)) :
    offers b fm (ms.map fun e => .layer e.1 e.2) = ms := by
  unfold offers
  induction ms with
  | nil => rfl
  | cons a ms ih => rw [List.map_cons, List.filterMap_cons]; simp only [RegCall.offer, ih]

/-- The frozen layers. -/
def frozenList (ws : Moments) (n : Nat) (ls : List (String × Layer)) : List (String × Layer) :=
  (ls.zipIdx n).map fun x => (x.1.1, frozen (x.1.2.readValueR (ws (2 * x.2)) (ws (2 * x.2 + 1))))

theorem buildListR_frozen (ws : Moments) (w : World) (skip : Bool) (ls : List (String × Layer)) : ∀ n value,
    buildListR ws (2 * n) skip value ls = buildList w skip value (frozenList ws n ls) := by
  induction ls with
  | nil => intro n value; rfl
  | cons e ls ih =>
    intro n value
    rw [buildListR, frozenList, List.zipIdx_cons, List.map_cons, buildList]
    have ih := ih (n + 1)
    rw [show 2 * (n + 1) = 2 * n + 2 by omega] at ih
    simp only [frozen, Layer.readValue]
    cases e.2.readValueR (ws (2 * n)) (ws (2 * n + 1)) with
    | error x => cases skip <;> simp [ih, frozenList, frozen]
    | ok v => simp [ih, frozenList, frozen]

theorem frozen_register (b : Build) (fm : Formats) (ws : Moments) (ls : List (String × Layer))
    (hn : (ls.map Prod.fst).Nodup) :
    firsts (offers b fm (frozenCalls ws ls)) = frozenList ws 0 ls := by
  have h : frozenCalls ws ls = (frozenList ws 0 ls).map fun e => .layer e.1 e.2 := by
    simp [frozenCalls, frozenList, List.map_map, Function.comp_def]
  rw [h, offers_layers, firsts_of_nodup]
  have : (frozenList ws 0 ls).map Prod.fst = ls.map Prod.fst := by
    rw [frozenList, List.map_map]
    apply List.ext_getElem?
    intro i
    simp only [List.getElem?_map, List.getElem?_zipIdx]
    cases ls[i]? <;> simp
  rw [this]; exact hn

/-- **C71.** `build_value` among other processes reads every layer once, in order, at its own moments, and answers as
it would (at any time, in any world) for layers frozen to those readings: so everything said about
`build_value` (C07–C10, C14) holds of the readings; no layer is read twice or at a time outside its turn. -/
theorem C71_snapshot (b : Build) (fm : Formats) (calls : List RegCall) (ws : Moments) (w : World) (skip : Bool) :
    (register b fm calls).buildValueR ws skip =
      (register b fm (frozenCalls ws (firsts (offers b fm calls)))).buildValue w skip := by
  rw [buildValueR_is (is_register b fm calls), buildValue_is (is_register _ _ _),
    frozen_register b fm ws _ (nodup_firsts _)]
  exact buildListR_frozen ws w skip _ 0 _

/-- **C71.** What a file layer answers: nothing there when it looked: an empty map. There when it looked: what reading
the file later gives, which is the `NotFound` error if it vanished in between. -/
theorem C71_file_reading (fmt : Codec) (path : OsStr) (look read : World) :
    (look.pathExists path = false → (Layer.file (textHandler fmt) path).readValueR look read = .ok (.map [])) ∧
    (look.pathExists path = true → read.pathExists path = true →
      (Layer.file (textHandler fmt) path).readValueR look read = (Layer.file (textHandler fmt) path).readValue read) ∧
    (look.pathExists path = true → read.pathExists path = false →
      (Layer.file (textHandler fmt) path).readValueR look read = .error (.ioError (.refused 2))) := by
  refine ⟨fun h => ?_, fun h h2 => ?_, fun h h2 => ?_⟩
  · simp [Layer.readValueR, h, Value.newMap]
  · simp [Layer.readValueR, Layer.readValue, h, h2]
  · have : read.readToString path = .error (.refused 2) := by
      unfold World.pathExists at h2
      unfold World.readToString
      split at h2
      · rename_i hd; rw [hd]
      · cases h2
    simp [Layer.readValueR, h, textHandler, this]

/-- The file vanishes between the look and the read. -/
example : (Layer.file (textHandler exCodec) (os "/a.toml")).readValueR exDisk { exDisk with disk := fun _ => .absent none } =
    .error (.ioError (.refused 2)) :=
  (C71_file_reading exCodec (os "/a.toml") exDisk { exDisk with disk := fun _ => .absent none }).2.2 (by decide) rfl

/-- **C71.** With built-in layers and nobody touching the registered files or the prefixed variables, whatever else
happens, `build_value` answers as if alone. -/
theorem C71_undisturbed (b : Build) (fm : Formats) (calls : List RegCall) (ws : Moments) (w : World) (skip : Bool)
    (hb : ∀ c ∈ calls, c.BuiltIn) (ha : ∀ t, ∀ c ∈ calls, c.Agree (ws t) w) :
    (register b fm calls).buildValueR ws skip = (register b fm calls).buildValue w skip := by
  rw [buildValueR_is (is_register b fm calls), buildValue_is (is_register b fm calls)]
  have key : ∀ e ∈ firsts (offers b fm calls), ∀ s t, e.2.readValueR (ws s) (ws t) = e.2.readValue w := by
    intro e he s t
    obtain ⟨c, hc, ho⟩ := List.mem_filterMap.1 (mem_firsts he)
    have h1 := agree_readValue (hb c hc) (ha t c hc) ho
    rw [← h1]
    cases c with
    | layer => exact (hb _ hc).elim
    | memory n v => simp only [RegCall.offer, Option.some.injEq] at ho; subst ho; rfl
    | environment n pre => simp only [RegCall.offer, Option.some.injEq] at ho; subst ho; rfl
    | file n path =>
      have hs := (ha s _ hc).1
      have ht := (ha t _ hc).1
      have key : ∀ cd : Codec, (Layer.file (textHandler cd) path).readValueR (ws s) (ws t) =
          (Layer.file (textHandler cd) path).readValue (ws t) := by
        intro cd
        simp only [Layer.readValueR, Layer.readValue, hs, ht]
      simp only [RegCall.offer] at ho
      split at ho
      · cases ho; exact key _
      · split at ho
        · cases ho; exact key _
        · cases ho
  have hl : ∀ ls : List (String × Layer), (∀ e ∈ ls, ∀ s t, e.2.readValueR (ws s) (ws t) = e.2.readValue w) →
      ∀ t value, buildListR ws t skip value ls = buildList w skip value ls := by
    intro ls
    induction ls with
    | nil => intro _ t value; rfl
    | cons e ls ih =>
      intro h t value
      rw [buildListR, buildList, h e (by simp)]
      have ih := ih (fun a h' => h a (by simp [h']))
      cases e.2.readValue w with
      | error x => cases skip <;> simp [ih]
      | ok v => simp [ih]
  exact hl _ key 0 _

example : (register exB1 exFormats exCalls).buildValueR (fun t => { exDisk with cwd := if t = 1 then some (os "/") else none }) true =
    (register exB1 exFormats exCalls).buildValue exDisk true := by
  refine C71_undisturbed exB1 exFormats exCalls _ exDisk true ?_ ?_
  · intro c hc
    simp only [exCalls, List.mem_cons, List.not_mem_nil, or_false] at hc
    rcases hc with rfl | rfl | rfl | rfl | rfl | rfl <;> trivial
  · intro t c hc
    simp only [exCalls, List.mem_cons, List.not_mem_nil, or_false] at hc
    rcases hc with rfl | rfl | rfl | rfl | rfl | rfl <;> trivial

/-- **C71.** With `skip`, `build_value` succeeds with a map whatever other processes do. -/
theorem C71_skip (b : Build) (fm : Formats) (calls : List RegCall) (ws : Moments) :
    ∃ v, (register b fm calls).buildValueR ws true = .ok v ∧ v.isMap = true := by
  rw [C71_snapshot b fm calls ws (ws 0) true]
  obtain ⟨v, hv, -⟩ := C09_skip b fm (frozenCalls ws (firsts (offers b fm calls))) (ws 0)
  exact ⟨v, hv, (C08_map _ _ _ _ _ _ hv).1⟩

/-- The file of the example vanishes between the look and the reading: `build_value(false)` fails although at every
moment the call would have succeeded alone. -/
theorem C71_only_under_race : ∃ (b : Build) (fm : Formats) (calls : List RegCall) (ws : Moments),
    (∃ e, (register b fm calls).buildValueR ws false = .error e) ∧
    ∀ t, ∃ v, (register b fm calls).buildValue (ws t) false = .ok v := by
  refine ⟨exB1, exFormats, [.file "f" (os "/a.toml")],
    fun t => if t = 0 then exDisk else { exDisk with disk := fun _ => .absent none }, ⟨_, rfl⟩, fun t => ?_⟩
  by_cases h : t = 0
  · subst h; exact ⟨_, rfl⟩
  · simp only [h, if_false]; exact ⟨_, rfl⟩

/-- A history with a file that changes during the call, and one in which only unrelated things change. -/
example : (register exB1 exFormats exCalls).buildValueR (fun t => if t < 3 then exDisk else { exDisk with disk := fun _ => .absent none }) true
    = .ok (.map [("k", .string "w"), ("text", .map [("x", .none)])]) := by rfl
example : ∀ t : Nat, ∀ c ∈ exCalls, c.BuiltIn ∧
    c.Agree ((fun t => { exDisk with cwd := if t = 1 then some (os "/") else none } : Moments) t) exDisk := by
  intro t c hc
  simp only [exCalls, List.mem_cons, List.not_mem_nil, or_false] at hc
  rcases hc with rfl | rfl | rfl | rfl | rfl | rfl <;> refine ⟨trivial, ?_⟩ <;> first | trivial | exact ⟨rfl, rfl⟩ | rfl

end Verif.Props
