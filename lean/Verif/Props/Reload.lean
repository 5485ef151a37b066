import Verif.Spec.Reload
import Verif.Props.Order
import Verif.Props.Program
import Verif.Props.Footprint
/-!
# C124: building again after a settings file was changed from outside
-/
namespace Verif.Props
open Spec

variable {b : Build} {fm : Formats} {calls : List RegCall} {lower upper : List (String × Layer)} {name : String} {cd : Codec} {path : OsStr}
  {w w' : World}

theorem reload_others (h : Reload b fm calls lower name cd path upper w w') {e : String × Layer} (he : e ∈ lower ++ upper) :
    e.2.readValue w' = e.2.readValue w := by
  have hmem : e ∈ firsts (offers b fm calls) := by
    rw [h.layers]
    rcases List.mem_append.1 he with he | he
    · exact List.mem_append_left _ he
    · exact List.mem_append_right _ (List.mem_cons_of_mem _ he)
  obtain ⟨c, hc, ho⟩ := List.mem_filterMap.1 (mem_firsts hmem)
  have := h.builtIn c hc
  cases c with
  | layer => exact this.elim
  | memory => cases ho; rfl
  | environment => cases ho; simp only [Layer.readValue, Layer.readEnv, h.env]
  | file n q =>
    obtain ⟨cd', rfl, -⟩ := offer_file ho
    have hd : w'.disk (w'.locate q) = w.disk (w.locate q) := by
      rw [h.locate]; exact h.disk _ (h.places _ he _ _ rfl)
    simp only [Layer.readValue, pathExists_congr hd, textHandler, readToString_congr hd]

theorem reload_proper (h : Reload b fm calls lower name cd path upper w w') : ∀ e ∈ firsts (offers b fm calls), Proper e.2 := by
  intro e he
  obtain ⟨c, hc, ho⟩ := List.mem_filterMap.1 (mem_firsts he)
  exact C08_builtin_proper b fm c e (h.builtIn c hc) (fun n v e => h.memory n v (e ▸ hc)) ho

theorem reload_speaks (h : Reload b fm calls lower name cd path upper w w') {e : String × Layer} (he : e ∈ lower ++ upper) (p : Path) :
    Speaks w' e.2 p ↔ Speaks w e.2 p := by
  unfold Speaks; rw [reload_others h he]

/-- **C124.** The configuration is built before and after the file was changed. At every path
* about which a later layer speaks, nothing changes;
* about which the file says the same before and after (also: nothing, or cannot be read), nothing changes;
* about which no later layer speaks, what the file now says is shown. -/
theorem C124_path (h : Reload b fm calls lower name cd path upper w w') (skip : Bool) (v v' : Value)
    (hv : (register b fm calls).buildValue w skip = .ok v) (hv' : (register b fm calls).buildValue w' skip = .ok v') (p : Path) :
    ((∃ e ∈ upper, Speaks w e.2 p) → view v' p = view v p) ∧
    ((∀ x, Says w (.file (textHandler cd) path) p x ↔ Says w' (.file (textHandler cd) path) p x) → view v' p = view v p) ∧
    ((∀ e ∈ upper, ¬ Speaks w e.2 p) → ∀ x, Says w' (.file (textHandler cd) path) p x → view v' p = x) := by
  have hp := reload_proper h
  have hup : ∀ e ∈ upper, e ∈ lower ++ upper := fun e he => List.mem_append_right _ he
  have hlo : ∀ e ∈ lower, e ∈ lower ++ upper := fun e he => List.mem_append_left _ he
  have later : (∃ e ∈ upper, Speaks w e.2 p) → view v' p = view v p := by
    rintro ⟨e0, he0, hs0⟩
    rcases C07_cases w upper p with hno | ⟨bf, e, af, x, hls, hx, hm, hs, hlast⟩
    · exact absurd hs0 (hno e0 he0)
    · have hsplit : firsts (offers b fm calls) = (lower ++ (name, .file (textHandler cd) path) :: bf) ++ e :: af := by
        rw [h.layers, hls]; simp
      have he : e ∈ upper := by rw [hls]; simp
      have haf : ∀ a ∈ af, a ∈ upper := fun a ha => by rw [hls]; simp [ha]
      rw [C07_last_speaker b fm calls w skip v hv hp p _ e af x hsplit hx hm hs hlast,
        C07_last_speaker b fm calls w' skip v' hv' hp p _ e af x hsplit (by rw [reload_others h (hup e he), hx]) hm hs
          (fun a ha hs => hlast a ha ((reload_speaks h (hup a (haf a ha)) p).1 hs))]
  have shown : (∀ e ∈ upper, ¬ Speaks w e.2 p) → ∀ x, Says w' (.file (textHandler cd) path) p x → view v' p = x := by
    rintro hno x ⟨y, hy, hm, hs, rfl⟩
    exact C07_last_speaker b fm calls w' skip v' hv' hp p lower _ upper y h.layers hy hm hs
      fun a ha hs => hno a ha ((reload_speaks h (hup a ha) p).1 hs)
  refine ⟨later, fun hsame => ?_, shown⟩
  by_cases hl : ∃ e ∈ upper, Speaks w e.2 p
  · exact later hl
  have hno : ∀ e ∈ upper, ¬ Speaks w e.2 p := fun e he hs => hl ⟨e, he, hs⟩
  have hno' : ∀ e ∈ upper, ¬ Speaks w' e.2 p := fun e he hs => hno e he ((reload_speaks h (hup e he) p).1 hs)
  by_cases hf : Speaks w (.file (textHandler cd) path) p
  · obtain ⟨x, hx, hm, hs⟩ := hf
    rw [shown hno (view x p) ((hsame _).1 ⟨x, hx, hm, hs, rfl⟩),
      C07_last_speaker b fm calls w skip v hv hp p lower _ upper x h.layers hx hm hs hno]
  · have hf' : ¬ Speaks w' (.file (textHandler cd) path) p := fun ⟨x, hx, hm, hs⟩ => by
      obtain ⟨y, hy, hym, hys, -⟩ := (hsame _).2 ⟨x, hx, hm, hs, rfl⟩
      exact hf ⟨y, hy, hym, hys⟩
    rcases C07_cases w lower p with hn | ⟨bf, e, af, x, hls, hx, hm, hs, hlast⟩
    · rw [C07_nobody_speaks b fm calls w skip v hv hp p, C07_nobody_speaks b fm calls w' skip v' hv' hp p]
      · intro e he
        rw [h.layers] at he
        rcases List.mem_append.1 he with he | he
        · exact fun hs => hn e he ((reload_speaks h (hlo e he) p).1 hs)
        · rcases List.mem_cons.1 he with rfl | he
          · exact hf'
          · exact hno' e he
      · intro e he
        rw [h.layers] at he
        rcases List.mem_append.1 he with he | he
        · exact hn e he
        · rcases List.mem_cons.1 he with rfl | he
          · exact hf
          · exact hno e he
    · have hsplit : firsts (offers b fm calls) = bf ++ e :: (af ++ (name, .file (textHandler cd) path) :: upper) := by
        rw [h.layers, hls]; simp
      have he : e ∈ lower := by rw [hls]; simp
      have haf : ∀ a ∈ af, a ∈ lower := fun a ha => by rw [hls]; simp [ha]
      rw [C07_last_speaker b fm calls w skip v hv hp p _ e _ x hsplit hx hm hs,
        C07_last_speaker b fm calls w' skip v' hv' hp p _ e _ x hsplit (by rw [reload_others h (hlo e he), hx]) hm hs]
      · intro a ha
        rcases List.mem_append.1 ha with ha | ha
        · exact fun hs => hlast a ha ((reload_speaks h (hlo a (haf a ha)) p).1 hs)
        · rcases List.mem_cons.1 ha with rfl | ha
          · exact hf'
          · exact hno' a ha
      · intro a ha
        rcases List.mem_append.1 ha with ha | ha
        · exact hlast a ha
        · rcases List.mem_cons.1 ha with rfl | ha
          · exact hf
          · exact hno a ha

/-- **C124.** While the file is missing the configuration builds exactly what it would without the file's layer (or fails just so). -/
theorem C124_gone (h : Reload b fm calls lower name cd path upper w w') (calls' : List RegCall)
    (hwithout : firsts (offers b fm calls') = lower ++ upper) (hgone : w'.pathExists path = false) (skip : Bool) :
    (register b fm calls).buildValue w' skip = (register b fm calls').buildValue w skip := by
  rw [buildValue_is (is_register b fm calls), buildValue_is (is_register b fm calls'), h.layers, hwithout, buildList_append, buildList_append]
  have e1 : buildList w' skip Value.newMap lower = buildList w skip Value.newMap lower :=
    buildList_congr lower _ fun e he => reload_others h (List.mem_append_left _ he)
  have e2 : ∀ v, buildList w' skip v upper = buildList w skip v upper := fun v =>
    buildList_congr upper v fun e he => reload_others h (List.mem_append_right _ he)
  have hr : (Layer.file (textHandler cd) path).readValue w' = .ok (.map []) := C56_missing _ w' path hgone
  rw [e1]
  cases buildList w skip Value.newMap lower with
  | error x => rfl
  | ok v => simp only [Except.bind, buildList, hr, C02_merge_empty, e2]

/-- **C124.** While the file cannot be read, with `skip_on_error` the configuration builds exactly what it would without the file's layer; without it the build fails
with the file's error (unless an earlier layer fails too, then with that layer's). -/
theorem C124_broken (h : Reload b fm calls lower name cd path upper w w') (calls' : List RegCall)
    (hwithout : firsts (offers b fm calls') = lower ++ upper) (x : BakuninError)
    (hbroken : (Layer.file (textHandler cd) path).readValue w' = .error x) :
    (register b fm calls).buildValue w' true = (register b fm calls').buildValue w true ∧
    ((∀ e ∈ lower, ∃ y, e.2.readValue w = .ok y) → (register b fm calls).buildValue w' false = .error x) ∧
    (∀ before e after y, lower = before ++ e :: after → e.2.readValue w = .error y → (∀ a ∈ before, ∃ z, a.2.readValue w = .ok z) →
      (register b fm calls).buildValue w' false = .error y) := by
  refine ⟨?_, fun hok => ?_, fun before e after y hls hy hok => ?_⟩
  · rw [buildValue_is (is_register b fm calls), buildValue_is (is_register b fm calls'), h.layers, hwithout, buildList_append, buildList_append]
    have e1 : buildList w' true Value.newMap lower = buildList w true Value.newMap lower :=
      buildList_congr lower _ fun e he => reload_others h (List.mem_append_left _ he)
    have e2 : ∀ v, buildList w' true v upper = buildList w true v upper := fun v =>
      buildList_congr upper v fun e he => reload_others h (List.mem_append_right _ he)
    rw [e1]
    cases buildList w true Value.newMap lower with
    | error x => rfl
    | ok v => simp only [Except.bind, buildList, hbroken, e2, if_true]
  · rw [C10_first_error]
    refine ⟨lower, _, upper, h.layers, hbroken, fun a ha => ?_⟩
    rw [reload_others h (List.mem_append_left _ ha)]
    exact hok a ha
  · rw [C10_first_error]
    refine ⟨before, e, after ++ (name, .file (textHandler cd) path) :: upper, by rw [h.layers, hls]; simp, ?_, fun a ha => ?_⟩
    · rw [reload_others h (by rw [hls]; simp), hy]
    · rw [reload_others h (by rw [hls]; simp [ha])]
      exact hok a ha

/-- **C124.** Once the file has its old content back, whatever happened in between, the configuration builds exactly what it built. -/
theorem C124_restored (h : Reload b fm calls lower name cd path upper w w') (hback : w'.disk (w.locate path) = w.disk (w.locate path)) (skip : Bool) :
    (register b fm calls).buildValue w' skip = (register b fm calls).buildValue w skip := by
  rw [buildValue_is (is_register b fm calls), buildValue_is (is_register b fm calls)]
  refine buildList_congr _ _ fun e he => ?_
  rw [h.layers] at he
  rcases List.mem_append.1 he with he | he
  · exact reload_others h (List.mem_append_left _ he)
  · rcases List.mem_cons.1 he with rfl | he
    · have hd : w'.disk (w'.locate path) = w.disk (w.locate path) := by rw [h.locate]; exact hback
      simp only [Layer.readValue, pathExists_congr hd, textHandler, readToString_congr hd]
    · exact reload_others h (List.mem_append_right _ he)

/-- **C124.** Typed settings: if at every path where the type looks a later layer speaks or the file says the same as before, the settings are the same as before
(and can be read if they could be before). -/
theorem C124_settings (h : Reload b fm calls lower name cd path upper w w') (skip : Bool) (v v' : Value)
    (hv : (register b fm calls).buildValue w skip = .ok v) (hv' : (register b fm calls).buildValue w' skip = .ok v')
    (structs : Nat → List (String × Ty)) (hs : ∀ n, WellFormed (.struct (structs n))) (T : Ty) (hT : WellFormed T) (k : Nat)
    (hsame : ∀ p, Looks structs T p → p ≠ [] → (∃ e ∈ upper, Speaks w e.2 p) ∨
      ∀ x, Says w (.file (textHandler cd) path) p x ↔ Says w' (.file (textHandler cd) path) p x)
    (hc : ¬ KeyClash structs T v) :
    ((∃ d, deAt structs k T v = .ok d) ↔ ∃ d, deAt structs k T v' = .ok d) ∧
    ∀ d d', deAt structs k T v = .ok d → deAt structs k T v' = .ok d' → DSame d d' := by
  have hp := reload_proper h
  obtain ⟨m1, u1⟩ := C08_map b fm calls w skip v hv
  obtain ⟨m2, u2⟩ := C08_map b fm calls w' skip v' hv'
  refine C119_footprint structs hs T hT k v v' (u1 hp) (u2 hp) (fun p hl => ?_) hc
  by_cases e0 : p = []
  · subst e0
    cases v <;> cases m1
    cases v' <;> cases m2
    rfl
  · obtain ⟨h1, h2, -⟩ := C124_path h skip v v' hv hv' p
    exact ((hsame p hl e0).elim h1 h2).symm

/-! ## Examples -/

/-- Defaults, a file, the environment. -/
def exReCalls : List RegCall :=
  [.memory "d" (.map [("k", .string "old"), ("text", .string "dflt"), ("n", .boolean true)]), .file "f" (os "/a.toml"), .environment "e" "APP_"]
def exReLower : List (String × Layer) := [("d", .memory (.map [("k", .string "old"), ("text", .string "dflt"), ("n", .boolean true)]))]
def exReUpper : List (String × Layer) := [("e", .environment "APP_")]

theorem exRe_old : (Layer.file (textHandler exCodec) (os "/a.toml")).readValue exDisk = .ok (.map [("text", .string "hi")]) := rfl
theorem exRe_new : (Layer.file (textHandler exCodec) (os "/a.toml")).readValue (exDisk.put 1 (.file (utf8 "ho") none none)) =
    .ok (.map [("text", .string "ho")]) := rfl

theorem exReload (n : Node) : Reload exB1 exFormats exReCalls exReLower "f" exCodec (os "/a.toml") exReUpper exDisk (exDisk.put 1 n) where
  builtIn := by
    intro c hc
    simp only [exReCalls, List.mem_cons, List.not_mem_nil, or_false] at hc
    rcases hc with rfl | rfl | rfl <;> trivial
  memory := by
    intro n x hx
    simp only [exReCalls, List.mem_cons, List.not_mem_nil, or_false] at hx
    rcases hx with h | h | h
    · cases h; simp [UniqueKeys, UniqueKeysMap, UniqueKeysEntry]
    · cases h
    · cases h
  layers := by rfl
  places := by
    intro e he h q hq
    simp only [exReLower, exReUpper, List.cons_append, List.nil_append, List.mem_cons, List.not_mem_nil, or_false] at he
    rcases he with rfl | rfl <;> cases hq
  locate := rfl
  env := rfl
  disk := fun s hs => if_neg hs

/-- The file held `text = "hi"` and now holds `text = "ho"`: the setting changes, and nothing else does. -/
example : ∃ v v', (register exB1 exFormats exReCalls).buildValue exDisk false = .ok v ∧
    (register exB1 exFormats exReCalls).buildValue (exDisk.put 1 (.file (utf8 "ho") none none)) false = .ok v' ∧
    view v [.key "text"] = some (.string "hi") ∧ view v' [.key "text"] = some (.string "ho") ∧ view v' [.key "k"] = view v [.key "k"] ∧
    view v [.key "k"] = some (.string "w") ∧ view v' [.key "n"] = view v [.key "n"] := by
  refine ⟨_, _, rfl, rfl, rfl, ?_, ?_, rfl, ?_⟩
  · exact (C124_path (exReload (.file (utf8 "ho") none none)) false _ _ rfl rfl [.key "text"]).2.2 (by
      intro e he
      simp only [exReUpper, List.mem_singleton] at he
      subst he
      rintro ⟨x, hx, -, hs⟩
      cases hx
      exact hs ⟨[], "text", [], rfl, by simp [List.prefix_nil, view, head], rfl⟩) _
      ⟨.map [("text", .string "ho")], rfl, rfl, (by
        rintro ⟨q, k, r, h1, h2, h3⟩
        cases q with
        | nil => cases h1; cases h3
        | cons s q => simp at h1), rfl⟩
  · exact (C124_path (exReload (.file (utf8 "ho") none none)) false _ _ rfl rfl [.key "k"]).1 ⟨_, List.mem_singleton.2 rfl, _, rfl, rfl, by
      rintro ⟨q, k, r, h1, h2, h3⟩
      cases q with
      | nil => cases h1; cases h3
      | cons s q => simp at h1⟩
  · refine (C124_path (exReload (.file (utf8 "ho") none none)) false _ _ rfl rfl [.key "n"]).2.1 fun x => ⟨?_, ?_⟩
    · rintro ⟨y, hy, -, hs, -⟩
      rw [exRe_old] at hy; cases hy
      exact absurd ⟨[], "n", [], rfl, by simp [List.prefix_nil, view, head], rfl⟩ hs
    · rintro ⟨y, hy, -, hs, -⟩
      rw [exRe_new] at hy; cases hy
      exact absurd ⟨[], "n", [], rfl, by simp [List.prefix_nil, view, head], rfl⟩ hs

/-- The file is deleted. -/
example (skip : Bool) : (register exB1 exFormats exReCalls).buildValue (exDisk.put 1 (.absent none)) skip =
    (register exB1 exFormats (exReCalls.eraseIdx 1)).buildValue exDisk skip :=
  C124_gone (exReload (.absent none)) (exReCalls.eraseIdx 1) rfl rfl skip

/-- The file is damaged. -/
example : (register exB1 exFormats exReCalls).buildValue (exDisk.put 1 (.file (utf8 "bad") none none)) true =
      (register exB1 exFormats (exReCalls.eraseIdx 1)).buildValue exDisk true ∧
    (register exB1 exFormats exReCalls).buildValue (exDisk.put 1 (.file (utf8 "bad") none none)) false =
      .error (.configLayerError (.parseError "syntax")) :=
  have h := C124_broken (exReload (.file (utf8 "bad") none none)) (exReCalls.eraseIdx 1) rfl _ rfl
  ⟨h.1, h.2.1 (by intro e he; simp only [exReLower, List.mem_singleton] at he; subst he; exact ⟨_, rfl⟩)⟩

/-- The file is repaired (its write protection may differ). -/
example (skip : Bool) : (register exB1 exFormats exReCalls).buildValue (exDisk.put 1 (.file (utf8 "hi") none none)) skip =
    (register exB1 exFormats exReCalls).buildValue exDisk skip :=
  C124_restored (exReload (.file (utf8 "hi") none none)) rfl skip

/-- Settings with the fields `k` and `n` do not notice that `text` changed. -/
example : ∃ v v', (register exB1 exFormats exReCalls).buildValue exDisk false = .ok v ∧
    (register exB1 exFormats exReCalls).buildValue (exDisk.put 1 (.file (utf8 "ho") none none)) false = .ok v' ∧
    ∀ d d', deAt (fun _ => []) 1 (.struct [("k", .string), ("n", .bool)]) v = .ok d →
      deAt (fun _ => []) 1 (.struct [("k", .string), ("n", .bool)]) v' = .ok d' → DSame d d' := by
  have hsil : ∀ (t k : String) (p : Path), k ≠ "text" → Silent (.map [("text", .string t)]) (.key k :: p) := by
    intro t k p hk
    refine ⟨[], k, p, rfl, by simp [List.prefix_nil, view, head], ?_⟩
    have : ("text" == k) = false := by simpa using fun h => hk h.symm
    simp [view, child, this]
  refine ⟨_, _, rfl, rfl, (C124_settings (exReload (.file (utf8 "ho") none none)) false _ _ rfl rfl (fun _ => []) ?_ _ ?_ 1 ?_ ?_).2⟩
  · exact fun _ => .struct (by simp) (by simp)
  · refine .struct (by simp) ?_
    intro f hf
    simp only [List.mem_cons, List.not_mem_nil, or_false] at hf
    rcases hf with rfl | rfl
    · exact .string
    · exact .bool
  · intro p hl hne
    right
    cases hl with
    | here => exact absurd rfl hne
    | struct hm _ =>
      rename_i nm t q _
      have hk : nm ≠ "text" := by
        simp only [List.mem_cons, Prod.mk.injEq, List.not_mem_nil, or_false] at hm
        rcases hm with ⟨rfl, -⟩ | ⟨rfl, -⟩ <;> decide
      intro x
      constructor
      · rintro ⟨y, hy, -, hs, -⟩
        rw [exRe_old] at hy; cases hy
        exact absurd (hsil _ nm q hk) hs
      · rintro ⟨y, hy, -, hs, -⟩
        rw [exRe_new] at hy; cases hy
        exact absurd (hsil _ nm q hk) hs
  · rintro h
    cases h with
    | struct hm _ hc =>
      simp only [List.mem_cons, Prod.mk.injEq, List.not_mem_nil, or_false] at hm
      rcases hm with ⟨-, rfl⟩ | ⟨-, rfl⟩ <;> cases hc

end Verif.Props
