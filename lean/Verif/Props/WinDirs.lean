import Verif.Props.WinPath
import Verif.Lemmas.Macro
import Verif.Lemmas.Config
/-!
# C128: Windows candidates, extensions and directories
-/
namespace Verif.Props
open Spec FileFinder

theorem splitDot_plain {name : String} (hne : name ≠ "") (hd : '.' ∉ name.toList.drop 1) : splitDot (os name) = (os name, none) := by
  cases hc : name.toList with
  | nil => exact absurd (String.toList_inj.1 (by rw [hc]; rfl)) hne
  | cons c r =>
    have hr : dot ∉ r.map OsChar.chr := by
      rw [hc] at hd; simpa [dot] using hd
    have ho : os name = .chr c :: r.map OsChar.chr := by rw [os, hc]; rfl
    rw [ho]
    by_cases h : c = '.'
    · subst h; exact splitDot_firstDot hr
    · apply splitDot_noDot
      simp only [List.mem_cons, not_or]
      exact ⟨fun e => h (OsChar.chr.inj e).symm, hr⟩

theorem winInside_dir (folder : OsStr) (n : String) : WinInside folder n (winDir folder ++ os n) := by
  unfold winDir
  exact ⟨fun h => by rw [if_pos h], fun h => by rw [if_neg h]⟩

theorem winExt_any {ext : String} (hx : WinExt ext) : (os ext).any winSep = false := by
  rw [Bool.eq_false_iff]; intro h; rcases (any_winSep_os ext).1 h with h | h
  · exact hx.1 h
  · exact hx.2 h

theorem winCandidate_eq {folder : OsStr} {name ext : String} (hf : Finished folder) (hn : WinPlain name) (he : ext ≠ "") (hx : WinExt ext) :
    winCandidate folder name ext = winDir folder ++ ((splitDot (os name)).1 ++ dot :: os ext) := by
  have hne : os ext ≠ [] := fun e => he (os_inj e)
  simp only [winCandidate, winWithExtension, winExt_any hx, winSplit_join hf hn, if_neg hne, Bool.false_eq_true, if_false, Option.getD_some, List.append_assoc]

/-- **C128.** For a plain name without a dot after its first character the candidate is `name.ext` in the folder. -/
theorem C128_plain (folder : OsStr) (name ext : String) (hf : Finished folder) (hn : WinPlain name) (he : ext ≠ "") (hx : WinExt ext)
    (hd : '.' ∉ name.toList.drop 1) : WinInside folder (name ++ "." ++ ext) (winCandidate folder name ext) := by
  rw [winCandidate_eq hf hn he hx, splitDot_plain hn.ne hd]
  have : os name ++ dot :: os ext = os (name ++ "." ++ ext) := by rw [os_append, os_append, List.append_assoc]; rfl
  simp only [this]
  exact winInside_dir _ _

/-- **C128.** If the plain name has a dot after its first character, everything after the last dot is replaced: `s.t` becomes `s.ext`. -/
theorem C128_dotted (folder : OsStr) (s t ext : String) (hf : Finished folder) (hn : WinPlain (s ++ "." ++ t)) (hs : s ≠ "")
    (ht : '.' ∉ t.toList) (he : ext ≠ "") (hx : WinExt ext) :
    WinInside folder (s ++ "." ++ ext) (winCandidate folder (s ++ "." ++ t) ext) := by
  have hs' : os s ≠ [] := fun e => hs (os_inj e)
  have hsd : splitDot (os (s ++ "." ++ t)) = (os s, some (os t)) := by
    rw [os_append, os_append, List.append_assoc]
    exact splitDot_append hs' (t := os t) (by rw [mem_os_dot]; exact ht)
  rw [winCandidate_eq hf hn he hx, hsd]
  have : os s ++ dot :: os ext = os (s ++ "." ++ ext) := by rw [os_append, os_append, List.append_assoc]; rfl
  simp only [this]
  exact winInside_dir _ _

theorem winName_withExt {n e : OsStr} (hn : WinName n) (he : e ≠ []) (hes : ∀ x ∈ e, winSep x = false) : WinName ((splitDot n).1 ++ dot :: e) := by
  have hs := stem_ne hn.ne
  have hpre : ∃ t, n = (splitDot n).1 ++ t := by
    rcases splitDot_cases n with ⟨-, h⟩ | ⟨s, t, -, -, h, h'⟩
    · exact ⟨[], by rw [h]; simp⟩
    · exact ⟨dot :: t, by rw [h']; exact h⟩
  obtain ⟨t, ht⟩ := hpre
  generalize (splitDot n).1 = s at hs ht
  obtain ⟨x, s', rfl⟩ := List.exists_cons_of_ne_nil hs
  obtain ⟨y, e', rfl⟩ := List.exists_cons_of_ne_nil he
  refine ⟨by simp, by simp, fun h => ?_, fun z hz => ?_, fun a r h => ?_⟩
  · have := congrArg List.length h
    simp at this
    omega
  · rcases List.mem_append.1 hz with h | h
    · exact hn.noSep z (by rw [ht]; simp only [List.mem_append]; exact Or.inl h)
    · rcases List.mem_cons.1 h with rfl | h
      · decide
      · exact hes z h
  · cases s' with
    | nil => exact absurd (List.cons.inj (List.cons.inj h).2).1 (by decide)
    | cons z s' =>
      simp only [List.cons_append, List.cons.injEq] at h
      obtain ⟨rfl, rfl, -⟩ := h
      exact hn.noDrive x _ (by rw [ht]; rfl)

/-- **C128.** The extension of a candidate is the extension that was asked for (if that has no dot). -/
theorem C128_extension (folder : OsStr) (name ext : String) (hf : Finished folder) (hn : WinPlain name) (he : ext ≠ "") (hx : WinExt ext)
    (hd : '.' ∉ ext.toList) : winExtension (winCandidate folder name ext) = some (os ext) := by
  have hxs : ∀ x ∈ os ext, winSep x = false := by simpa using winExt_any hx
  rw [winCandidate_eq hf hn he hx, winExtension,
    winSplit_append (goodDir_winDir hf) (winName_withExt (winName_os hn) (fun e => he (os_inj e)) hxs)]
  simp [splitDot_append (stem_ne (winName_os hn).ne) (t := os ext) (by rw [mem_os_dot]; exact hd)]

/-- **C128.** A file name that begins with a drive replaces the folder altogether. One that begins with one separator keeps of a folder on a drive only the
drive, and of a folder without drive and server nothing. So such names do not stay in the folder. -/
theorem C128_elsewhere (folder : OsStr) (name ext : String) :
    (∀ c r, name.toList = c :: ':' :: r → c.isAlpha = true → winJoin folder (os name) = os name ∧
      ∀ folder', winCandidate folder name ext = winCandidate folder' name ext) ∧
    (∀ s r, name.toList = s :: r → (s = '\\' ∨ s = '/') → (∀ x, r.head? = some x → x ≠ '\\' ∧ x ≠ '/') →
      (∀ c rest, folder = OsChar.chr c :: .chr ':' :: rest → c.isAlpha = true → winJoin folder (os name) = [.chr c, .chr ':'] ++ os name) ∧
      (∀ x, folder = [] ∨ (folder = x :: folder.tail ∧ ¬ Separator x ∧ folder.tail.head? ≠ some (.chr ':')) → winJoin folder (os name) = os name)) := by
  constructor
  · intro c r h hc
    have hp : (winPrefix (os name)).isSome = true := by
      rw [os, h]; simp [winPrefix, notSep_letter hc, driveLetter, hc]
    have e : ∀ folder, winJoin folder (os name) = os name := fun folder => by rw [winJoin, if_pos hp]
    exact ⟨e _, fun folder' => by rw [winCandidate, winCandidate, e, e]⟩
  · intro s r h hs hr
    have hsep : winSep (.chr s) = true := by rcases hs with rfl | rfl <;> decide
    have hnotdrive : driveLetter (.chr s) = false := notDrive_sep hsep
    have hp : winPrefix (os name) = none := by
      rw [os, h]
      cases r with
      | nil => rfl
      | cons y r =>
        have hy : winSep (.chr y) = false := by
          rw [Bool.eq_false_iff, Ne, winSep_iff]
          rintro (e | e) <;> cases e
          · exact (hr _ rfl).1 rfl
          · exact (hr _ rfl).2 rfl
        simp [winPrefix, hy, hnotdrive]
    have hh : (os name).head?.any winSep = true := by rw [os, h]; simp [hsep]
    have e : winJoin folder (os name) = folder.take (winPrefixLen folder) ++ os name := by
      rw [winJoin, hp, if_neg (by simp), if_pos hh]
    refine ⟨fun c rest hf hc => ?_, fun x hf => ?_⟩
    · rw [e, hf]
      simp [winPrefixLen, winPrefix, notSep_letter hc, driveLetter, hc]
    · rw [e]
      have : winPrefixLen folder = 0 := by
        rcases hf with rfl | ⟨hf, hx, ht⟩
        · rfl
        · rw [hf]
          have hx' : winSep x = false := by rw [Bool.eq_false_iff, Ne, winSep_iff]; exact hx
          cases htl : folder.tail with
          | nil => rfl
          | cons y t =>
            rw [htl] at ht
            have hy : y ≠ .chr ':' := fun e => ht (by rw [e]; rfl)
            simp [winPrefixLen, winPrefix, hx', hy]
      rw [this]; rfl

theorem winPrefix_share {a b c : OsChar} {server share rest : OsStr} (ha : Separator a) (hb : Separator b) (hc : Separator c)
    (h1 : server ≠ []) (h2 : share ≠ []) (h3 : ∀ x ∈ server ++ share, ¬ Separator x) (h4 : ∀ x, rest.head? = some x → Separator x) :
    winPrefix (a :: b :: server ++ c :: share ++ rest) = some (2 + server.length + 1 + share.length, false) := by
  have h3' : ∀ x ∈ server ++ share, winSep x = false := fun x hx => by
    rw [Bool.eq_false_iff, Ne, winSep_iff]; exact h3 x hx
  have hc' := (winSep_iff c).2 hc
  have e1 : (server ++ (c :: (share ++ rest))).takeWhile (fun c => !winSep c) = server :=
    takeWhile_append_stop _ _ _ (fun y hy => by simp [h3' y (by simp [hy])]) (fun y hy => by simp at hy; subst hy; simp [hc'])
  have e2 : (server ++ (c :: (share ++ rest))).dropWhile (fun c => !winSep c) = c :: (share ++ rest) :=
    dropWhile_append_stop _ _ _ (fun y hy => by simp [h3' y (by simp [hy])]) (fun y hy => by simp at hy; subst hy; simp [hc'])
  have e3 : (share ++ rest).takeWhile (fun c => !winSep c) = share :=
    takeWhile_append_stop _ _ _ (fun y hy => by simp [h3' y (by simp [hy])]) (fun y hy => by simp [(winSep_iff y).2 (h4 y hy)])
  have e : a :: b :: server ++ c :: share ++ rest = a :: b :: (server ++ (c :: (share ++ rest))) := by simp
  rw [e]
  simp only [winPrefix, (winSep_iff a).2 ha, (winSep_iff b).2 hb, e1, e2, e3, List.drop_succ_cons, List.drop_zero]
  simp [h1, h2]

theorem winJoin_rooted {folder : OsStr} {name : String} {s : Char} {r : List Char} (h : name.toList = s :: r) (hs : s = '\\' ∨ s = '/')
    (hr : ∀ x, r.head? = some x → x ≠ '\\' ∧ x ≠ '/') : winJoin folder (os name) = folder.take (winPrefixLen folder) ++ os name := by
  have hsep : winSep (.chr s) = true := by rcases hs with rfl | rfl <;> decide
  have hp : winPrefix (os name) = none := by
    rw [os, h]
    cases r with
    | nil => rfl
    | cons y r =>
      have hy : winSep (.chr y) = false := by
        rw [Bool.eq_false_iff, Ne, winSep_iff]
        rintro (e | e) <;> cases e
        · exact (hr _ rfl).1 rfl
        · exact (hr _ rfl).2 rfl
      simp [winPrefix, hy, notDrive_sep hsep]
  have hh : (os name).head?.any winSep = true := by rw [os, h]; simp [hsep]
  rw [winJoin, hp, if_neg (by simp), if_pos hh]

/-- **C128.** Network folders. A name that begins with one separator keeps of a folder on a share only the server and the share. If the folder is just a server,
without a share, a plain name is taken for the share: the candidate is the name without any extension, whatever extension is asked for, and has none (so that a
file layer for it is refused); a name that begins with a separator then replaces the folder. -/
theorem C128_network (a b : OsChar) (server : OsStr) (ha : Separator a) (hb : Separator b) (h1 : server ≠ []) (h3 : ∀ x ∈ server, ¬ Separator x) :
    (∀ c share rest, Separator c → share ≠ [] → (∀ x ∈ share, ¬ Separator x) → (∀ x, rest.head? = some x → Separator x) →
      ∀ (name : String) s r, name.toList = s :: r → (s = '\\' ∨ s = '/') → (∀ x, r.head? = some x → x ≠ '\\' ∧ x ≠ '/') →
        winJoin (a :: b :: server ++ c :: share ++ rest) (os name) = a :: b :: server ++ c :: share ++ os name) ∧
    (∀ name ext, WinPlain name → WinExt ext → winCandidate (a :: b :: server) name ext = a :: b :: server ++ os "\\" ++ os name ∧
      winExtension (winCandidate (a :: b :: server) name ext) = none) ∧
    (∀ (name : String) s r, name.toList = s :: r → (s = '\\' ∨ s = '/') → (∀ x, r.head? = some x → x ≠ '\\' ∧ x ≠ '/') →
      winJoin (a :: b :: server) (os name) = os name) := by
  have h3' : ∀ x ∈ server, winSep x = false := fun x hx => by rw [Bool.eq_false_iff, Ne, winSep_iff]; exact h3 x hx
  have hpn : winPrefix (a :: b :: server) = none := by
    have e2 : server.dropWhile (fun c => !winSep c) = [] := by
      have := dropWhile_append_stop (fun c => !winSep c) server [] (fun y hy => by simp [h3' y hy]) (fun y hy => by cases hy)
      simpa using this
    simp [winPrefix, (winSep_iff a).2 ha, (winSep_iff b).2 hb, e2]
  refine ⟨fun c share rest hc h2 hsh h4 name s r h hs hr => ?_, fun name ext hn hx => ?_, fun name s r h hs hr => ?_⟩
  · rw [winJoin_rooted h hs hr, winPrefixLen, winPrefix_share ha hb hc h1 h2 (fun x hx => (List.mem_append.1 hx).elim (h3 x) (hsh x)) h4]
    have hl : 2 + server.length + 1 + share.length = (a :: b :: server ++ c :: share).length := by simp; omega
    simp only [Option.map_some, Option.getD_some]
    rw [hl, List.take_left]
  · have ho : ¬ Open (a :: b :: server) := by
      rw [winOpen_iff]
      rintro (h | h | h)
      · cases h
      · obtain ⟨y, hy⟩ := Option.ne_none_iff_exists'.1 (mt List.getLast?_eq_none_iff.1 h1)
        have e : a :: b :: server = [a, b] ++ server := rfl
        rw [e, List.getLast?_append, hy] at h
        simp [h3' y (List.mem_of_getLast? hy)] at h
      · rw [hpn] at h; cases h
    have hj : winJoin (a :: b :: server) (os name) = a :: b :: server ++ os "\\" ++ os name := by
      rw [winJoin_name (winName_os hn), winDir, if_neg ho]
    have hsp : winSplitFileName (a :: b :: server ++ os "\\" ++ os name) = none := by
      have hw := winName_os hn
      have e : a :: b :: server ++ os "\\" ++ os name = a :: b :: server ++ .chr '\\' :: os name ++ [] := by simp [os]
      have hp := winPrefix_share (a := a) (b := b) (c := .chr '\\') (server := server) (share := os name) (rest := []) ha hb (Or.inl rfl) h1 hw.ne
        (fun x hx => (List.mem_append.1 hx).elim (h3 x) (fun hx hs => by have := hw.noSep x hx; rw [(winSep_iff x).2 hs] at this; cases this))
        (fun x hx => by cases hx)
      have hl : 2 + server.length + 1 + (os name).length = (a :: b :: server ++ OsChar.chr '\\' :: os name ++ []).length := by simp; omega
      rw [e, winSplitFileName, winPrefixLen, hp]
      simp only [Option.map_some, Option.getD_some]
      rw [hl, List.drop_length]
      rfl
    have hc : winCandidate (a :: b :: server) name ext = a :: b :: server ++ os "\\" ++ os name := by
      rw [winCandidate, hj]
      simp only [winWithExtension, winExt_any hx, hsp, Bool.false_eq_true, if_false, Option.getD_some]
    exact ⟨hc, by rw [hc, winExtension, hsp]; rfl⟩
  · rw [winJoin_rooted h hs hr, winPrefixLen, hpn]; rfl

/-! ## File layers -/

theorem winExtension_join {folder : OsStr} {name s ext : String} (hf : Finished folder) (hn : WinPlain name) (e : name = s ++ "." ++ ext) (hs : s ≠ "")
    (hd : '.' ∉ ext.toList) : winExtension (winJoin folder (os name)) = some (os ext) := by
  rw [winExtension, winSplit_join hf hn]
  subst e
  have hs' : os s ≠ [] := fun e => hs (os_inj e)
  have hsd : splitDot (os (s ++ "." ++ ext)) = (os s, some (os ext)) := by
    rw [os_append, os_append, List.append_assoc]
    exact splitDot_append hs' (t := os ext) (by rw [mem_os_dot]; exact hd)
  simp [hsd]

/-- **C128.** Adding a file layer on Windows for a file `stem.ext` in a folder: it is accepted exactly if the format named by the extension, spelled in lower
case, is enabled; the layer then reads and writes that path in that format. Otherwise it fails with `UnsupportedExtension` and that extension, and the configuration stays as it was. -/
theorem C128_file_layer (b : Build) (fm : Formats) (c : Config) (layer : String) (folder : OsStr) (s ext : String) (hf : Finished folder)
    (hn : WinPlain (s ++ "." ++ ext)) (hs : s ≠ "") (hd : '.' ∉ ext.toList) :
    (b.toml = true → ext = "toml" → windowsPaths.addFileLayer b fm c layer (winJoin folder (os (s ++ "." ++ ext))) =
      (.ok (), c.pushLayer layer (Layer.newFile (textHandler fm.toml) (winJoin folder (os (s ++ "." ++ ext)))))) ∧
    (b.json = true → ext = "json" → windowsPaths.addFileLayer b fm c layer (winJoin folder (os (s ++ "." ++ ext))) =
      (.ok (), c.pushLayer layer (Layer.newFile (textHandler fm.json) (winJoin folder (os (s ++ "." ++ ext)))))) ∧
    ((ext = "toml" → b.toml = false) → (ext = "json" → b.json = false) →
      windowsPaths.addFileLayer b fm c layer (winJoin folder (os (s ++ "." ++ ext))) = (.error (.configLayerError (.unsupportedExtension ext)), c)) := by
  have he := winExtension_join hf hn rfl hs hd
  have hE : windowsPaths.extension (winJoin folder (os (s ++ "." ++ ext))) = some (os ext) := he
  have ho : ((some (os ext) : Option OsStr).bind osToStr) = some ext := osToStr_os ext
  refine ⟨fun hb h => ?_, fun hb h => ?_, fun h1 h2 => ?_⟩
  · subst h
    simp [Paths.addFileLayer, Paths.matchPath, hE, osToStr_os, hb]
  · subst h
    simp [Paths.addFileLayer, Paths.matchPath, hE, osToStr_os, hb]
  · unfold Paths.addFileLayer
    rw [if_neg, if_neg]
    · simp [hE, osToStr_os]
    · simp only [Paths.matchPath, hE, ho, Bool.and_eq_true, beq_iff_eq, Option.some.injEq]
      rintro ⟨h, e⟩; rw [h2 e] at h; cases h
    · simp only [Paths.matchPath, hE, ho, Bool.and_eq_true, beq_iff_eq, Option.some.injEq]
      rintro ⟨h, e⟩; rw [h1 e] at h; cases h

/-! ## Directories -/

/-- **C128.** On Windows, if one of the three known folders is missing no directory resolves, not even the working directory or an explicit path. If they are
there, the home directory is the profile, the configuration and the preferences directory are both the roaming application data, and the directories of an application are
the entries of that name in the profile and in the roaming application data. -/
theorem C128_dirs (w : World) (profile roaming localData : Option OsStr) (hw : WindowsDirs w profile roaming localData) :
    (profile = none ∨ roaming = none ∨ localData = none → ∀ d, windowsPaths.toPathBuf w d = none) ∧
    (∀ p r l, profile = some p → roaming = some r → localData = some l →
      windowsPaths.toPathBuf w .userHome = some p ∧ windowsPaths.toPathBuf w .userConfig = some r ∧ windowsPaths.toPathBuf w .userPreferences = some r ∧
      windowsPaths.toPathBuf w .workingDirectory = w.cwd ∧ (∀ x, windowsPaths.toPathBuf w (.path x) = some (os x)) ∧
      ∀ app, WinPlain app → (∃ q, windowsPaths.toPathBuf w (.appHome app) = some q ∧ WinInside p app q) ∧
        ∃ q, windowsPaths.toPathBuf w (.appConfig app) = some q ∧ WinInside r app q) := by
  have hb : w.baseDirs = _ := hw
  constructor
  · intro h d
    have : w.baseDirs = none := by
      rw [hb]
      rcases h with rfl | rfl | rfl
      · rfl
      · cases profile <;> rfl
      · cases profile <;> cases roaming <;> rfl
    simp [Paths.toPathBuf, this]
  · rintro p r l rfl rfl rfl
    simp only [windowsBaseDirs] at hb
    refine ⟨by simp [Paths.toPathBuf, hb], by simp [Paths.toPathBuf, hb], by simp [Paths.toPathBuf, hb], by simp [Paths.toPathBuf, hb],
      fun x => by simp [Paths.toPathBuf, hb], fun app happ => ⟨⟨winJoin p (os app), by simp [Paths.toPathBuf, hb, windowsPaths], C128_join p app happ⟩,
        ⟨winJoin r (os app), by simp [Paths.toPathBuf, hb, windowsPaths], C128_join r app happ⟩⟩⟩

/-! ## The layers of `create_config!` -/

theorem win_foldl (w : World) (ds : List OSDirectory) : ∀ f : FileFinder,
    (ds.foldl (windowsPaths.withOsDirectory w) f) = { f with folders := f.folders ++ ds.filterMap (windowsPaths.toPathBuf w) } := by
  induction ds with
  | nil => intro f; simp
  | cons d ds ih =>
    intro f
    rw [List.foldl_cons, ih, List.filterMap_cons]
    unfold Paths.withOsDirectory
    cases windowsPaths.toPathBuf w d <;> simp

theorem enabled_winExt (b : Build) : ∀ e ∈ enabled b, WinExt e ∧ e ≠ "" ∧ '.' ∉ e.toList := by
  have h1 : WinExt "toml" ∧ "toml" ≠ "" ∧ '.' ∉ "toml".toList := by unfold WinExt; decide
  have h2 : WinExt "json" ∧ "json" ≠ "" ∧ '.' ∉ "json".toList := by unfold WinExt; decide
  unfold enabled
  cases b.toml <;> cases b.json <;> simp [h1, h2]

/-- **C128.** One layer of `create_config!` on Windows: the candidates are, for each directory of the layer that resolves, each enabled extension; the layer gets the
first that exists, else the first; it is left out if there are none. -/
theorem C128_layer (b : Build) (w : World) (name : String) (dirs : List OSDirectory) :
    (∃ r, windowsPaths.layerFinder b w name dirs = .ok r ∧ chosen w (winLayer b w name dirs) = some r.path) ∨
    ((∃ e, windowsPaths.layerFinder b w name dirs = .err e) ∧ winLayer b w name dirs = []) := by
  have hfe : dirs.foldl (windowsPaths.withOsDirectory w) ((FileFinder.new name).withSupportedExtensions b) =
      ⟨dirs.filterMap (windowsPaths.toPathBuf w), name, enabled b⟩ := by
    rw [win_foldl]
    obtain ⟨h1, h2, h3⟩ := C52_supported b (FileFinder.new name)
    rw [h2, h3, h1]
    simp [FileFinder.new, enabled]
  unfold Paths.layerFinder
  rw [hfe]
  generalize hf : (⟨dirs.filterMap (windowsPaths.toPathBuf w), name, enabled b⟩ : FileFinder) = f
  have hc : (winCandidates f).map Prod.fst = winLayer b w name dirs := by
    subst hf
    unfold winCandidates winLayer
    rw [List.map_flatMap]
    congr 1
    funext folder
    rw [List.map_map]; rfl
  by_cases h1 : f.folders = []
  · right
    refine ⟨⟨_, by rw [Paths.findFirst, (by simp [validate, h1] : f.validate = .err (.fileFinderError .noFoldersDefined))]; rfl⟩, ?_⟩
    rw [← hc]; unfold winCandidates; rw [h1]; rfl
  · by_cases h2 : f.extensions = []
    · right
      refine ⟨⟨_, by rw [Paths.findFirst, (by simp [validate, h1, h2] : f.validate = .err (.fileFinderError .noExtensionsDefined))]; rfl⟩, ?_⟩
      rw [← hc]; unfold winCandidates; rw [h2]; simp
    · left
      have hr : WinReady f := ⟨h1, h2, by rw [← hf]; exact fun e he => (enabled_winExt b e he).1⟩
      unfold chosen
      rw [← hc]
      cases hfd : (winCandidates f).find? (fun c => w.pathExists c.1) with
      | some c =>
        obtain ⟨i, g1, g2, g3⟩ := find_first_index _ _ hfd
        obtain ⟨r, e1, e2⟩ := (C128_find_first b w f true hr).1 i c g1 g2 g3
        refine ⟨r, e1, ?_⟩
        rw [List.find?_map]
        have : ((fun p => w.pathExists p) ∘ Prod.fst : OsStr × String → Bool) = fun c => w.pathExists c.1 := rfl
        rw [this, hfd, e2.1]; rfl
      | none =>
        have hno : ∀ c ∈ winCandidates f, w.pathExists c.1 = false := by
          intro c hcm
          have := List.find?_eq_none.1 hfd c hcm
          simpa using this
        obtain ⟨c, r, e1, e2, e3⟩ := ((C128_find_first b w f true hr).2 hno).1 rfl
        refine ⟨r, e2, ?_⟩
        rw [List.find?_map]
        have : ((fun p => w.pathExists p) ∘ Prod.fst : OsStr × String → Bool) = fun c => w.pathExists c.1 := rfl
        rw [this, hfd, List.head?_map, List.head?_eq_getElem?, e1, e3.1]; rfl

/-- **C128.** So a layer at the user's configuration directory looks for `{RoamingAppData}\name.ext` for each enabled format, and for nothing else. -/
theorem C128_user_config (b : Build) (w : World) (p r l : OsStr) (hw : WindowsDirs w (some p) (some r) (some l)) (hf : Finished r) (ho : ¬ Open r)
    (name : String) (hn : WinPlain name) (hd : '.' ∉ name.toList.drop 1) :
    winLayer b w name [.userConfig] = (enabled b).map fun ext => r ++ os "\\" ++ os (name ++ "." ++ ext) := by
  have hu := ((C128_dirs w _ _ _ hw).2 p r l rfl rfl rfl).2.1
  unfold winLayer
  simp only [List.filterMap_cons, hu, List.filterMap_nil, List.flatMap_cons, List.flatMap_nil, List.append_nil]
  apply List.map_congr_left
  intro ext hext
  obtain ⟨h1, h2, -⟩ := enabled_winExt b ext hext
  exact (C128_plain r name ext hf hn h2 h1 hd).2 ho

/-! ## Extensions with separators -/

theorem win_join (d n : OsStr) : windowsPaths.join d n = winJoin d n := rfl

theorem winExt_bad {base : OsStr} {e : String} (h : '\\' ∈ e.toList ∨ '/' ∈ e.toList) : windowsPaths.withExt base e = .panic := by
  have := (any_winSep_os e).2 h
  simp [Paths.withExt, windowsPaths, winWithExtension, this]

theorem winExt_ok {base : OsStr} {e : String} (h : WinExt e) : windowsPaths.withExt base e = .ok (winReplace base e) := withExtP_ok (winReplace_eq h base)

/-- **C128.** An extension that contains `\` or `/`: std's `with_extension` panics on it on Windows. `find_last`, `find_all` and `find_all_or_first` always
get there; `find_first` unless it finds a file in the first folder with an extension listed before. -/
theorem C128_separator (b : Build) (w : World) (f : FileFinder) (am : Bool) (folder : OsStr) (more : List OsStr) (good rest : List String)
    (bad : String) (hf : f.folders = folder :: more) (he : f.extensions = good ++ bad :: rest) (hg : ∀ e ∈ good, WinExt e)
    (hb : '\\' ∈ bad.toList ∨ '/' ∈ bad.toList) :
    windowsPaths.findLast b w f am = .panic ∧ windowsPaths.findAll b w f am = .panic ∧ windowsPaths.findAllOrFirst b w f = .panic ∧
    (windowsPaths.findFirst b w f am = .panic ↔ ∀ e ∈ good, w.pathExists (winCandidate folder f.fileName e) = false) ∧
    ((∃ e ∈ good, w.pathExists (winCandidate folder f.fileName e) = true) → ∃ r, windowsPaths.findFirst b w f am = .ok r ∧ r.exists' = true) := by
  have hv : f.validate = .ok () := by simp [validate, hf, he]
  refine ⟨?_, ?_, ?_, ?_⟩
  · rw [Paths.findLast, hv, Outcome.bind_ok, hf, Paths.findLastFolders, he, win_join]
    suffices h : ∀ (good : List String) st, (∀ e ∈ good, WinExt e) →
        windowsPaths.findLastExts b w am (winJoin folder (os f.fileName)) st (good ++ bad :: rest) = .panic by rw [h good _ hg]; rfl
    intro good
    induction good with
    | nil => intro st _; rw [List.nil_append, Paths.findLastExts, winExt_bad hb]; rfl
    | cons e good ih =>
      intro st h
      rw [List.cons_append, Paths.findLastExts, winExt_ok (h e (by simp)), Outcome.bind_ok]
      have ih' := fun st => ih st (fun e he => h e (by simp [he]))
      split
      · exact ih' _
      · split <;> exact ih' _
  · rw [Paths.findAll, hv, Outcome.bind_ok, hf, Paths.findAllFolders, he, win_join]
    suffices h : ∀ (good : List String) st, (∀ e ∈ good, WinExt e) →
        windowsPaths.findAllExts b w am (winJoin folder (os f.fileName)) st (good ++ bad :: rest) = .panic by rw [h good _ hg]; rfl
    intro good
    induction good with
    | nil => intro st _; rw [List.nil_append, Paths.findAllExts, winExt_bad hb]; rfl
    | cons e good ih =>
      intro st h
      rw [List.cons_append, Paths.findAllExts, winExt_ok (h e (by simp)), Outcome.bind_ok]
      have ih' := fun st => ih st (fun e he => h e (by simp [he]))
      split
      · cases hi : incIndex b st.2 with
        | ok i => rw [Outcome.bind_ok]; exact ih' _
        | err e => exact absurd hi (incIndex_noErr b _ e)
        | panic => rfl
      · exact ih' _
  · rw [Paths.findAllOrFirst, hv, Outcome.bind_ok, hf, Paths.findAllOrFirstFolders, he, win_join]
    suffices h : ∀ (good : List String) st, (∀ e ∈ good, WinExt e) →
        windowsPaths.findAllOrFirstExts b w (winJoin folder (os f.fileName)) st (good ++ bad :: rest) = .panic by rw [h good _ hg]; rfl
    intro good
    induction good with
    | nil => intro st _; rw [List.nil_append, Paths.findAllOrFirstExts, winExt_bad hb]; rfl
    | cons e good ih =>
      intro st h
      rw [List.cons_append, Paths.findAllOrFirstExts, winExt_ok (h e (by simp)), Outcome.bind_ok]
      have ih' := fun st => ih st (fun e he => h e (by simp [he]))
      split
      · cases hi : incIndex b st.index with
        | ok i => rw [Outcome.bind_ok]; exact ih' _
        | err e => exact absurd hi (incIndex_noErr b _ e)
        | panic => rfl
      · split <;> exact ih' _
  · rw [Paths.findFirst, hv, Outcome.bind_ok, hf, Paths.findFirstFolders, he, win_join]
    have key : ∀ (good : List String) first, (∀ e ∈ good, WinExt e) →
        ((∀ e ∈ good, w.pathExists (winCandidate folder f.fileName e) = false) →
          windowsPaths.findFirstExts b w am (winJoin folder (os f.fileName)) first (good ++ bad :: rest) = .panic) ∧
        ((∃ e ∈ good, w.pathExists (winCandidate folder f.fileName e) = true) →
          ∃ r, windowsPaths.findFirstExts b w am (winJoin folder (os f.fileName)) first (good ++ bad :: rest) = .ok (.ret r) ∧ r.exists' = true) := by
      intro good
      induction good with
      | nil =>
        intro first _
        refine ⟨fun _ => ?_, fun ⟨e, he, _⟩ => by cases he⟩
        rw [List.nil_append, Paths.findFirstExts, winExt_bad hb]; rfl
      | cons e good ih =>
        intro first h
        have ih' := fun first => ih first (fun e he => h e (by simp [he]))
        rw [List.cons_append, Paths.findFirstExts, winExt_ok (h e (by simp)), Outcome.bind_ok]
        by_cases hx : w.pathExists (winCandidate folder f.fileName e) = true
        · have hx' : w.pathExists (winReplace (winJoin folder (os f.fileName)) e) = true := hx
          rw [if_pos hx']
          refine ⟨fun hall => ?_, fun _ => ⟨_, rfl, hx'⟩⟩
          rw [hall e (by simp)] at hx; cases hx
        · have hx' : ¬ w.pathExists (winReplace (winJoin folder (os f.fileName)) e) = true := hx
          rw [if_neg hx']
          constructor
          · intro hall
            have := fun first => (ih' first).1 (fun e he => hall e (by simp [he]))
            split <;> exact this _
          · rintro ⟨e', he', hxe⟩
            have hin : e' ∈ good := by
              rcases List.mem_cons.1 he' with rfl | h
              · exact absurd hxe hx
              · exact h
            have := fun first => (ih' first).2 ⟨e', hin, hxe⟩
            split <;> exact this _
    obtain ⟨k1, k2⟩ := key good none hg
    by_cases hall : ∀ e ∈ good, w.pathExists (winCandidate folder f.fileName e) = false
    · rw [k1 hall]
      refine ⟨⟨fun _ => hall, fun _ => rfl⟩, fun ⟨e, he, hx⟩ => ?_⟩
      rw [hall e he] at hx; cases hx
    · have hex : ∃ e ∈ good, w.pathExists (winCandidate folder f.fileName e) = true := by
        apply Classical.byContradiction
        intro hno
        exact hall fun e he => by
          cases hx : w.pathExists (winCandidate folder f.fileName e) with
          | false => rfl
          | true => exact absurd ⟨e, he, hx⟩ hno
      obtain ⟨r, hr, hre⟩ := k2 hex
      rw [hr]
      exact ⟨⟨fun h => (by cases h), fun h => absurd h hall⟩, fun _ => ⟨r, rfl, hre⟩⟩


/-! ## Examples -/

theorem winPlain_check {name : String} (h1 : name ≠ "" ∧ name ≠ "." ∧ name ≠ ".." ∧ '\\' ∉ name.toList ∧ '/' ∉ name.toList) (h2 : name.toList[1]? ≠ some ':') :
    WinPlain name := ⟨h1.1, h1.2.1, h1.2.2.1, h1.2.2.2.1, h1.2.2.2.2, fun _ _ h => absurd (by rw [h]; rfl) h2⟩
theorem finished_local {folder : OsStr} (h : folder.head?.any winSep = false) : Finished folder :=
  Or.inl fun a b r e hs => by rw [e] at h; simp [(winSep_iff a).2 hs.1] at h
theorem exWin_conf : WinPlain "conf" := winPlain_check (by decide) (by decide)
theorem exWin_dotted : WinPlain ("my" ++ "." ++ "config") := winPlain_check (by decide) (by decide)
theorem exWin_roaming : Finished (os "C:\\Users\\x\\AppData\\Roaming") ∧ ¬ Open (os "C:\\Users\\x\\AppData\\Roaming") :=
  ⟨finished_local (by decide), by rw [winOpen_iff]; decide⟩
theorem exWin_share : Finished (os "\\\\srv\\home\\x") :=
  Or.inr ⟨.chr '\\', .chr '\\', .chr '\\', os "srv", os "home", os "\\x", by decide, Or.inl rfl, Or.inl rfl, Or.inl rfl, by decide, by decide,
    by intro x hx hs; have := (winSep_iff x).2 hs; have : ∀ y ∈ os "srv" ++ os "home", winSep y = false := by decide
       rw [this x hx] at *; contradiction, by intro x hx; left; simpa [os] using hx.symm⟩
theorem exWin_toml : WinExt "toml" := by unfold WinExt; decide

/-- A Windows machine: the roaming folder has a `conf.json` (place 1), nothing else is there. -/
def exWin : World :=
  { locate := fun p => if p = os "C:\\Users\\x\\AppData\\Roaming\\conf.json" then 1 else 0
    disk := fun s => if s = 1 then .file [] none none else .absent none
    room := fun _ => none
    env := []
    baseDirs := windowsBaseDirs (some (os "C:\\Users\\x")) (some (os "C:\\Users\\x\\AppData\\Roaming")) (some (os "C:\\Users\\x\\AppData\\Local"))
    cwd := some (os "D:\\work") }
def exWinBuild : Build := ⟨true, true, true⟩
def exWinFinder : FileFinder := ⟨[os "C:\\Users\\x", os "C:\\Users\\x\\AppData\\Roaming"], "conf", ["toml", "json"]⟩
theorem exWin_ready : WinReady exWinFinder := ⟨by decide, by decide, by intro e he; have : e = "toml" ∨ e = "json" := by simpa [exWinFinder] using he
                                                                        unfold WinExt; rcases this with rfl | rfl <;> decide⟩

example : WinInside (os "C:\\Users\\x\\AppData\\Roaming") "conf.toml" (winCandidate (os "C:\\Users\\x\\AppData\\Roaming") "conf" "toml") :=
  C128_plain _ "conf" "toml" exWin_roaming.1 exWin_conf (by decide) exWin_toml (by decide)
example : winCandidate (os "C:\\Users\\x") "conf" "toml" = os "C:\\Users\\x\\conf.toml" := by decide
example : winCandidate (os "C:") "conf" "toml" = os "C:conf.toml" := by decide
example : winCandidate (os "D:/work/") "my.config" "toml" = os "D:/work/my.toml" := by decide
example : WinInside (os "\\\\srv\\home\\x") "my.toml" (winCandidate (os "\\\\srv\\home\\x") "my.config" "toml") :=
  C128_dotted _ "my" "config" "toml" exWin_share exWin_dotted (by decide) (by decide) (by decide) exWin_toml
example : winCandidate (os "\\\\srv\\home\\x") "my.config" "toml" = os "\\\\srv\\home\\x\\my.toml" := by decide
example : winExtension (winCandidate (os "\\\\srv\\home\\x") "my.config" "toml") = some (os "toml") :=
  C128_extension _ _ _ exWin_share exWin_dotted (by decide) exWin_toml (by decide)
/-- An unfinished network path: the file name is taken for the share, and the extension is not added. -/
example : winCandidate (os "\\\\srv") "conf" "toml" = os "\\\\srv\\conf" ∧ winExtension (os "\\\\srv\\conf.toml") = none := by decide
example : winCandidate (os "\\\\srv") "conf" "json" = os "\\\\srv" ++ os "\\" ++ os "conf" :=
  ((C128_network (.chr '\\') (.chr '\\') (os "srv") (Or.inl rfl) (Or.inl rfl) (by decide) (by
    intro x hx hs; have := (winSep_iff x).2 hs; have h : ∀ y ∈ os "srv", winSep y = false := by decide
    rw [h x hx] at this; cases this)).2.1 "conf" "json" exWin_conf (by unfold WinExt; decide)).1
example : winJoin (os "\\\\srv\\home\\x") (os "\\conf") = os "\\\\srv\\home\\conf" := by decide
example : winCandidate (os "C:\\Users\\x") "D:conf" "toml" = winCandidate (os "E:\\") "D:conf" "toml" :=
  ((C128_elsewhere (os "C:\\Users\\x") "D:conf" "toml").1 'D' "conf".toList rfl (by decide)).2 _
example : winJoin (os "C:\\Users\\x") (os "\\conf") = os "C:\\conf" :=
  ((C128_elsewhere (os "C:\\Users\\x") "\\conf" "toml").2 '\\' "conf".toList rfl (Or.inl rfl) (by decide)).1 'C' (os "\\Users\\x") rfl (by decide)
example : winJoin (os "rel\\x") (os "/conf") = os "/conf" :=
  ((C128_elsewhere (os "rel\\x") "/conf" "toml").2 '/' "conf".toList rfl (Or.inr rfl) (by decide)).2 (.chr 'r') (Or.inr ⟨rfl, (by rintro (h | h) <;> cases h), (by decide)⟩)
example (fm : Formats) (c : Config) : windowsPaths.addFileLayer exWinBuild fm c "user" (winJoin (os "C:\\Users\\x") (os "conf.toml")) =
    (.ok (), c.pushLayer "user" (Layer.newFile (textHandler fm.toml) (winJoin (os "C:\\Users\\x") (os "conf.toml")))) :=
  (C128_file_layer exWinBuild fm c "user" _ "conf" "toml" (finished_local (by decide)) (winPlain_check (by decide) (by decide)) (by decide) (by decide)).1 rfl rfl
example (fm : Formats) (c : Config) : windowsPaths.addFileLayer exWinBuild fm c "user" (winJoin (os "C:\\Users\\x") (os "conf.TOML")) =
    (.error (.configLayerError (.unsupportedExtension "TOML")), c) :=
  (C128_file_layer exWinBuild fm c "user" _ "conf" "TOML" (finished_local (by decide)) (winPlain_check (by decide) (by decide)) (by decide) (by decide)).2.2
    (fun h => absurd h (by decide)) (fun h => absurd h (by decide))
theorem exWin_dirs : WindowsDirs exWin (some (os "C:\\Users\\x")) (some (os "C:\\Users\\x\\AppData\\Roaming")) (some (os "C:\\Users\\x\\AppData\\Local")) := rfl
example : ∃ q, windowsPaths.toPathBuf exWin (.appConfig "conf") = some q ∧ WinInside (os "C:\\Users\\x\\AppData\\Roaming") "conf" q :=
  (((C128_dirs exWin _ _ _ exWin_dirs).2 _ _ _ rfl rfl rfl).2.2.2.2.2 "conf" exWin_conf).2
example (d : OSDirectory) : windowsPaths.toPathBuf { exWin with baseDirs := windowsBaseDirs (some []) none (some []) } d = none :=
  (C128_dirs { exWin with baseDirs := windowsBaseDirs (some []) none (some []) } (some []) none (some []) rfl).1 (Or.inr (Or.inl rfl)) d
example : winLayer exWinBuild exWin "conf" [.userConfig] =
    [os "C:\\Users\\x\\AppData\\Roaming" ++ os "\\" ++ os "conf.toml", os "C:\\Users\\x\\AppData\\Roaming" ++ os "\\" ++ os "conf.json"] :=
  C128_user_config exWinBuild exWin _ _ _ exWin_dirs exWin_roaming.1 exWin_roaming.2 "conf" exWin_conf (by decide)
/-- The layer takes the file that exists. -/
example : ∃ r, windowsPaths.layerFinder exWinBuild exWin "conf" [.userHome, .userConfig] = .ok r ∧ r.path = os "C:\\Users\\x\\AppData\\Roaming\\conf.json" := by
  rcases C128_layer exWinBuild exWin "conf" [.userHome, .userConfig] with ⟨r, h1, h2⟩ | ⟨-, h2⟩
  · refine ⟨r, h1, ?_⟩
    have : chosen exWin (winLayer exWinBuild exWin "conf" [.userHome, .userConfig]) = some (os "C:\\Users\\x\\AppData\\Roaming\\conf.json") := by decide
    rw [this] at h2; exact (Option.some.inj h2).symm
  · exact absurd h2 (by decide)
example : ∃ r, windowsPaths.findFirst exWinBuild exWin exWinFinder false = .ok r ∧
    Reports exWinBuild exWin (os "C:\\Users\\x\\AppData\\Roaming\\conf.json", "json") 0 r :=
  (C128_find_first exWinBuild exWin exWinFinder false exWin_ready).1 3 _ rfl (by decide) (by
    intro j d hj hd
    have h3 : j = 0 ∨ j = 1 ∨ j = 2 := by omega
    rcases h3 with rfl | rfl | rfl <;> · cases hd; decide)
example : ∃ r, windowsPaths.findLast exWinBuild exWin exWinFinder false = .ok r ∧
    Reports exWinBuild exWin (os "C:\\Users\\x\\AppData\\Roaming\\conf.json", "json") 0 r :=
  (C128_find_last exWinBuild exWin exWinFinder false exWin_ready).1 3 _ rfl (by decide) (by
    intro j d hj hd
    have := (List.getElem?_eq_some_iff.1 hd).1
    have h4 : (winCandidates exWinFinder).length = 4 := by decide
    omega)
example : ∃ rs, windowsPaths.findAll exWinBuild exWin exWinFinder true = .ok rs ∧ rs.length = 4 := by
  obtain ⟨rs, h1, h2, -⟩ := (C128_find_all exWinBuild exWin exWinFinder true exWin_ready (by decide)).1 (by decide)
  exact ⟨rs, h1, h2.trans (by decide)⟩
example : windowsPaths.findAllOrFirst exWinBuild exWin exWinFinder = windowsPaths.findAll exWinBuild exWin exWinFinder false :=
  (C128_find_all_or_first exWinBuild exWin exWinFinder exWin_ready).1 ⟨(os "C:\\Users\\x\\AppData\\Roaming\\conf.json", "json"), by decide, by decide⟩
example (b : Build) (w : World) : windowsPaths.findAll b w ⟨[os "C:\\"], "x", ["toml", "d\\json"]⟩ true = .panic :=
  (C128_separator b w _ true (os "C:\\") [] ["toml"] [] "d\\json" rfl rfl (by simpa using exWin_toml) (by decide)).2.1
example (b : Build) (hb : b.overflowChecks = true) (w : World) (n : Nat) (hn : 65536 ≤ n) :
    windowsPaths.findAll b w ⟨List.replicate n (os "C:\\"), "x", ["toml"]⟩ true = .panic := by
  have h0 : List.replicate n (os "C:\\") ≠ [] := by intro h; have := congrArg List.length h; simp at this; omega
  refine (C128_index_overflow b w _ true ⟨h0, by simp, by simpa using exWin_toml⟩ ?_).1 hb
  have : winListed w true ⟨List.replicate n (os "C:\\"), "x", ["toml"]⟩ = winCandidates ⟨List.replicate n (os "C:\\"), "x", ["toml"]⟩ :=
    List.filter_eq_self.2 fun _ _ => rfl
  rw [this]
  simpa [winCandidates] using hn

end Verif.Props
