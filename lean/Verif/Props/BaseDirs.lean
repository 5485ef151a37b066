import Verif.Spec.BaseDirs
import Verif.Props.Versions
/-!
# The user's directories (C106)
-/
namespace Verif.Props
open Spec

theorem varOs_iff {env : List (OsStr × OsStr)} {name : String} : (∀ v, varOs env name = some v ↔ VarIs env name v) ∧
    (varOs env name = none ↔ VarUnset env name) := by
  induction env with
  | nil =>
    refine ⟨fun v => ⟨fun h => (by cases h), ?_⟩, ⟨fun _ e he => (by cases he), fun _ => rfl⟩⟩
    rintro ⟨before, after, h, -⟩
    cases before <;> cases h
  | cons a env ih =>
    unfold varOs at ih ⊢
    by_cases ha : a.1 = os name
    · rw [List.find?_cons_of_pos (by simpa using ha)]
      refine ⟨fun v => ⟨?_, ?_⟩, ⟨fun h => (by cases h), fun h => absurd ha (h a (by simp))⟩⟩
      · intro h
        cases h
        exact ⟨[], env, by rw [List.nil_append, ← ha], by simp⟩
      · rintro ⟨before, after, h, hb⟩
        cases before with
        | nil => cases h; rfl
        | cons x before => cases h; exact absurd ha (hb a (by simp))
    · rw [List.find?_cons_of_neg (by simpa using ha)]
      refine ⟨fun v => (ih.1 v).trans ⟨?_, ?_⟩, ih.2.trans ⟨?_, fun h e he => h e (by simp [he])⟩⟩
      · rintro ⟨before, after, rfl, hb⟩
        exact ⟨a :: before, after, rfl, by
          intro e he
          rcases List.mem_cons.1 he with rfl | he
          · exact ha
          · exact hb e he⟩
      · rintro ⟨before, after, h, hb⟩
        cases before with
        | nil => cases h; exact absurd rfl ha
        | cons x before => cases h; exact ⟨before, after, rfl, fun e he => hb e (by simp [he])⟩
      · intro h e he
        rcases List.mem_cons.1 he with rfl | he
        · exact ha
        · exact h e he

theorem homeDir_iff {env : List (OsStr × OsStr)} {passwd : Option OsStr} :
    (∀ h, homeDir env passwd = some h ↔ HomeIs env passwd h) ∧ (homeDir env passwd = none ↔ NoHome env passwd) := by
  obtain ⟨v1, v2⟩ := @varOs_iff env "HOME"
  unfold homeDir HomeIs NoHome
  cases hv : varOs env "HOME" with
  | none =>
    have hu := v2.1 hv
    have hno : ∀ x, ¬ VarIs env "HOME" x := fun x hx => by rw [(v1 x).2 hx] at hv; cases hv
    simp [hu, hno]
  | some x =>
    have hx := (v1 x).1 hv
    have hnu : ¬ VarUnset env "HOME" := fun hu => by rw [v2.2 hu] at hv; cases hv
    have huniq : ∀ y, VarIs env "HOME" y ↔ y = x := by
      intro y
      rw [← v1 y, hv]
      simp [eq_comm]
    by_cases hxe : x = []
    · subst hxe
      simp only [if_true, huniq, hnu, false_or, true_and]
      refine ⟨fun h => ⟨Or.inr, ?_⟩, trivial⟩
      rintro (⟨h1, h2⟩ | h)
      · exact absurd h1 h2
      · exact h
    · simp only [if_neg hxe, huniq, hnu, false_or, Option.some.injEq]
      refine ⟨fun h => ⟨fun e => Or.inl ⟨e.symm, e ▸ hxe⟩, ?_⟩, ⟨fun h => (by cases h), fun h => absurd h.1.symm hxe⟩⟩
      rintro (⟨h1, -⟩ | ⟨h1, -⟩)
      · exact h1.symm
      · exact absurd h1.symm hxe

/-! ## C106 -/

/-- **C106.** Without a home directory (`$HOME` empty or not set, and no entry in the user database) no directory resolves, not even the
working directory or an explicit path; with one, every directory resolves except possibly the working directory. -/
theorem C106_home (pl : Platform) (passwd : Option OsStr) (w : World) (hw : DirsOf pl passwd w) :
    (NoHome w.env passwd → ∀ d : OSDirectory, d.toPathBuf w = none) ∧
    (∀ h, HomeIs w.env passwd h → OSDirectory.userHome.toPathBuf w = some h ∧ OSDirectory.workingDirectory.toPathBuf w = w.cwd ∧
      (∀ p, (OSDirectory.path p).toPathBuf w = some (os p)) ∧ ∀ d : OSDirectory, d ≠ .workingDirectory → ∃ p, d.toPathBuf w = some p) ∧
    (NoHome w.env passwd ∨ ∃ h, HomeIs w.env passwd h) := by
  refine ⟨?_, ?_, ?_⟩
  · intro hn d
    have : w.baseDirs = none := by rw [hw, baseDirsOf, homeDir_iff.2.2 hn]; rfl
    simp [OSDirectory.toPathBuf, this]
  · intro h hh
    have hd := (homeDir_iff.1 h).2 hh
    obtain ⟨dirs, hb, hhome⟩ : ∃ dirs : BaseDirs, w.baseDirs = some dirs ∧ dirs.home = h := by
      rw [hw, baseDirsOf, hd]
      cases pl <;> exact ⟨_, rfl, rfl⟩
    refine ⟨by simp [OSDirectory.toPathBuf, hb, hhome], by simp [OSDirectory.toPathBuf, hb], fun p => by simp [OSDirectory.toPathBuf, hb], ?_⟩
    intro d hne
    cases d <;> simp [OSDirectory.toPathBuf, hb] at hne ⊢
  · cases hd : homeDir w.env passwd with
    | none => exact Or.inl (homeDir_iff.2.1 hd)
    | some h => exact Or.inr ⟨h, (homeDir_iff.1 h).1 hd⟩

theorem join_inside {d : OsStr} {n : String} (hn : PlainName n) (h1 : d ≠ []) (h2 : d.getLast? ≠ some sep) : pathJoin d (os n) = inside d n :=
  (C50_join d n hn).2.1 h1 h2

/-- **C106.** On Linux the configuration and the preferences directory are `$XDG_CONFIG_HOME` if that is an absolute path; if it is not set, empty
or relative they are `.config` in the home directory. `AppConfig` and `AppHome` are the directory of that name in the configuration and in the home
directory. (The directories not ending in `/`.) -/
theorem C106_linux (passwd : Option OsStr) (w : World) (hw : DirsOf .linux passwd w) (h : OsStr) (hh : HomeIs w.env passwd h)
    (hne : h ≠ []) (hsep : h.getLast? ≠ some sep) :
    (∀ app, PlainName app → (OSDirectory.appHome app).toPathBuf w = some (inside h app)) ∧
    (∀ x, VarIs w.env "XDG_CONFIG_HOME" x → x.head? = some sep →
      OSDirectory.userConfig.toPathBuf w = some x ∧ OSDirectory.userPreferences.toPathBuf w = some x ∧
      (x.getLast? ≠ some sep → ∀ app, PlainName app → (OSDirectory.appConfig app).toPathBuf w = some (inside x app))) ∧
    ((VarUnset w.env "XDG_CONFIG_HOME" ∨ ∃ x, VarIs w.env "XDG_CONFIG_HOME" x ∧ x.head? ≠ some sep) →
      OSDirectory.userConfig.toPathBuf w = some (inside h ".config") ∧
      OSDirectory.userPreferences.toPathBuf w = some (inside h ".config") ∧
      ∀ app, PlainName app → (OSDirectory.appConfig app).toPathBuf w = some (inside (inside h ".config") app)) := by
  have hd := (homeDir_iff.1 h).2 hh
  have hdot : PlainName ".config" := ⟨by decide, by decide, by decide, by decide⟩
  have hcfg : pathJoin h (os ".config") = inside h ".config" := join_inside hdot hne hsep
  have hb : w.baseDirs = _ := hw
  rw [baseDirsOf, hd, Option.map_some] at hb
  refine ⟨?_, ?_, ?_⟩
  · intro app happ
    simp only [OSDirectory.toPathBuf, hb]
    rw [join_inside happ hne hsep]
  · intro x hx hxs
    rw [(varOs_iff.1 x).2 hx] at hb
    simp only [if_pos hxs] at hb
    refine ⟨by simp [OSDirectory.toPathBuf, hb], by simp [OSDirectory.toPathBuf, hb], fun hl app happ => ?_⟩
    have hxe : x ≠ [] := by rintro rfl; cases hxs
    simp only [OSDirectory.toPathBuf, hb]
    rw [join_inside happ hxe hl]
  · intro hx
    have hb' : w.baseDirs = some ⟨h, inside h ".config", inside h ".config"⟩ := by
      rw [hb]
      rcases hx with hx | ⟨x, hx, hxs⟩
      · rw [varOs_iff.2.2 hx]; simp only [hcfg]
      · rw [(varOs_iff.1 x).2 hx]; simp only [if_neg hxs, hcfg]
    refine ⟨by simp [OSDirectory.toPathBuf, hb'], by simp [OSDirectory.toPathBuf, hb'], fun app happ => ?_⟩
    simp only [OSDirectory.toPathBuf, hb']
    rw [join_inside happ (by simp [inside, hne]) (by
      rw [inside, List.getLast?_append]
      have : (os ".config").getLast? = some (.chr 'g') := by decide
      rw [this]; simp [sep])]

/-- **C106.** On macOS they are `Library/Application Support` and `Library/Preferences` in the home directory, whatever `XDG_CONFIG_HOME` is. -/
theorem C106_macos (passwd : Option OsStr) (w : World) (hw : DirsOf .macos passwd w) (h : OsStr) (hh : HomeIs w.env passwd h)
    (hne : h ≠ []) (hsep : h.getLast? ≠ some sep) :
    OSDirectory.userConfig.toPathBuf w = some (inside h "Library/Application Support") ∧
    OSDirectory.userPreferences.toPathBuf w = some (inside h "Library/Preferences") ∧
    ∀ app, PlainName app → (OSDirectory.appHome app).toPathBuf w = some (inside h app) ∧
      (OSDirectory.appConfig app).toPathBuf w = some (inside (inside h "Library/Application Support") app) := by
  have hd := (homeDir_iff.1 h).2 hh
  have hb : w.baseDirs = _ := hw
  rw [baseDirsOf, hd, Option.map_some] at hb
  have key : ∀ s : String, (os s).head? ≠ some sep → pathJoin h (os s) = inside h s := by
    intro s hs
    simp [pathJoin, hs, hne, hsep, inside]; rfl
  have hb' : w.baseDirs = some ⟨h, inside h "Library/Application Support", inside h "Library/Preferences"⟩ := by
    rw [hb]; simp only [key "Library/Application Support" (by decide), key "Library/Preferences" (by decide)]
  refine ⟨by simp [OSDirectory.toPathBuf, hb'], by simp [OSDirectory.toPathBuf, hb'], fun app happ => ⟨?_, ?_⟩⟩
  · simp only [OSDirectory.toPathBuf, hb']
    rw [join_inside happ hne hsep]
  · simp only [OSDirectory.toPathBuf, hb']
    rw [join_inside happ (by simp [inside, hne]) (by
      rw [inside, List.getLast?_append]
      have : (os "Library/Application Support").getLast? = some (.chr 't') := by decide
      rw [this]; simp [sep])]

/-- **C106.** So on Linux with an absolute `$XDG_CONFIG_HOME`, a layer of `create_config!` at the user's configuration directory looks for
`$XDG_CONFIG_HOME/name.ext` for each enabled format, and for nothing else. -/
theorem C106_layer (b : Build) (passwd : Option OsStr) (w : World) (hw : DirsOf .linux passwd w) (h x : OsStr) (hh : HomeIs w.env passwd h)
    (hne : h ≠ []) (hsep : h.getLast? ≠ some sep) (hx : VarIs w.env "XDG_CONFIG_HOME" x) (hxs : x.head? = some sep) (hxl : x.getLast? ≠ some sep)
    (name : String) (hn : PlainName name) (hd : '.' ∉ name.toList.drop 1) (l : LayerSpec) (hl : l.dirs = [.userConfig]) :
    layerCandidates b w name l = (enabled b).map fun ext => inside x (name ++ "." ++ ext) := by
  have hu := ((C106_linux passwd w hw h hh hne hsep).2.1 x hx hxs).1
  have hxe : x ≠ [] := by rintro rfl; cases hxs
  unfold layerCandidates
  rw [hl]
  simp only [List.filterMap_cons, hu, List.filterMap_nil, List.flatMap_cons, List.flatMap_nil, List.append_nil]
  apply List.map_congr_left
  intro ext hext
  have hext' : ext = "toml" ∨ ext = "json" := by
    unfold enabled at hext
    rcases List.mem_append.1 hext with h | h
    · left; cases hb : b.toml <;> simp [hb] at h; exact h
    · right; cases hb : b.json <;> simp [hb] at h; exact h
  have hee : ext ≠ "" := by rcases hext' with rfl | rfl <;> decide
  have hes : '/' ∉ ext.toList := by rcases hext' with rfl | rfl <;> decide
  rw [C50_plain x name ext hn hee hd]
  have hh2 : (os (name ++ "." ++ ext)).head? ≠ some sep := by
    rw [os, List.head?_map]
    have := hn.noSep
    simp only [String.toList_append]
    cases hc : name.toList with
    | nil => exact absurd (String.toList_inj.1 (by rw [hc]; rfl)) hn.ne
    | cons c r =>
      rw [hc] at this
      simp only [List.mem_cons, not_or] at this
      intro e
      simp [sep] at e
      exact this.1 e.symm
  simp [pathJoin, hh2, hxe, hxl, inside]; rfl

/-- **C106.** Only two variables matter: if `HOME` and `XDG_CONFIG_HOME` are the same in two environments (and the user database and the
working directory are), every directory resolves alike. -/
theorem C106_only_two_variables (pl : Platform) (passwd : Option OsStr) (w w' : World) (hw : DirsOf pl passwd w) (hw' : DirsOf pl passwd w')
    (hsame : ∀ n ∈ ["HOME", "XDG_CONFIG_HOME"], ∀ v, VarIs w.env n v ↔ VarIs w'.env n v) (hcwd : w.cwd = w'.cwd) (d : OSDirectory) :
    d.toPathBuf w = d.toPathBuf w' := by
  have hv : ∀ n ∈ ["HOME", "XDG_CONFIG_HOME"], varOs w.env n = varOs w'.env n := by
    intro n hn
    apply Option.ext
    intro v
    rw [varOs_iff.1 v, varOs_iff.1 v]
    exact hsame n hn v
  have hb : w.baseDirs = w'.baseDirs := by
    rw [hw, hw', baseDirsOf, baseDirsOf, homeDir, homeDir, hv "HOME" (by simp), hv "XDG_CONFIG_HOME" (by simp)]
  unfold OSDirectory.toPathBuf
  rw [hb, hcwd]

/-! ### Concrete cases -/

def exXdg : World := { exFresh with
  env := [(os "HOME", os "/home/u"), (os "XDG_CONFIG_HOME", os "/cfg")], baseDirs := some ⟨os "/home/u", os "/cfg", os "/cfg"⟩ }

theorem exXdg_dirs : DirsOf .linux none exXdg := rfl

theorem exXdg_home : HomeIs exXdg.env none (os "/home/u") :=
  Or.inl ⟨⟨[], [(os "XDG_CONFIG_HOME", os "/cfg")], rfl, by simp⟩, by decide⟩

theorem exXdg_config : VarIs exXdg.env "XDG_CONFIG_HOME" (os "/cfg") :=
  ⟨[(os "HOME", os "/home/u")], [], rfl, by decide⟩

/-- `$XDG_CONFIG_HOME` is used … -/
example : (OSDirectory.appConfig "app").toPathBuf exXdg = some (os "/cfg/app") ∧ (OSDirectory.appHome "app").toPathBuf exXdg = some (os "/home/u/app") ∧
    layerCandidates ⟨true, true, true⟩ exXdg "conf" ⟨"user", [.userConfig], none⟩ = [os "/cfg/conf.toml", os "/cfg/conf.json"] := by
  have hl := C106_linux none exXdg exXdg_dirs _ exXdg_home (by decide) (by decide)
  refine ⟨((hl.2.1 _ exXdg_config (by decide)).2.2 (by decide) "app" ⟨by decide, by decide, by decide, by decide⟩).trans (by decide),
    (hl.1 "app" ⟨by decide, by decide, by decide, by decide⟩).trans (by decide), ?_⟩
  rw [C106_layer ⟨true, true, true⟩ none exXdg exXdg_dirs _ _ exXdg_home (by decide) (by decide) exXdg_config (by decide) (by decide) "conf"
    ⟨by decide, by decide, by decide, by decide⟩ (by decide) _ rfl]
  decide

/-- … unless it is relative. -/
def exXdgRelative : World := { exFresh with
  env := [(os "HOME", os "/home/u"), (os "XDG_CONFIG_HOME", os "cfg")],
  baseDirs := some ⟨os "/home/u", os "/home/u/.config", os "/home/u/.config"⟩ }

example : (OSDirectory.appConfig "app").toPathBuf exXdgRelative = some (os "/home/u/.config/app") :=
  (((C106_linux none exXdgRelative rfl (os "/home/u")
    (Or.inl ⟨⟨[], [(os "XDG_CONFIG_HOME", os "cfg")], rfl, by simp⟩, by decide⟩) (by decide) (by decide)).2.2
    (Or.inr ⟨os "cfg", ⟨[(os "HOME", os "/home/u")], [], rfl, by decide⟩, by decide⟩)).2.2 "app" ⟨by decide, by decide, by decide, by decide⟩).trans
    (by decide)

/-- An empty `$HOME` and no user entry: even an explicit path is not searched. -/
example : (OSDirectory.path "/etc").toPathBuf { exFresh with env := [(os "HOME", [])], baseDirs := none } = none :=
  (C106_home .linux none { exFresh with env := [(os "HOME", [])], baseDirs := none } rfl).1
    ⟨Or.inr ⟨[], [], rfl, by simp⟩, rfl⟩ _

/-- On macOS. -/
example : OSDirectory.userPreferences.toPathBuf { exXdg with baseDirs := baseDirsOf .macos exXdg.env none } =
    some (os "/home/u/Library/Preferences") :=
  ((C106_macos none { exXdg with baseDirs := baseDirsOf .macos exXdg.env none } rfl _ exXdg_home (by decide) (by decide)).2.1).trans (by decide)

/-- Other variables do not matter. -/
example (d : OSDirectory) : d.toPathBuf exXdg = d.toPathBuf { exXdg with env := (os "LANG", os "C") :: exXdg.env } := by
  refine C106_only_two_variables .linux none exXdg { exXdg with env := (os "LANG", os "C") :: exXdg.env } exXdg_dirs rfl ?_ rfl d
  intro n hn v
  rw [← varOs_iff.1 v]
  refine Iff.trans ?_ (varOs_iff.1 v)
  simp only [List.mem_cons, List.not_mem_nil, or_false] at hn
  rcases hn with rfl | rfl <;> exact Iff.rfl

end Verif.Props
