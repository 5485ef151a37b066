import Verif.Lemmas.Layer
import Verif.Props.Config
/-!
# Properties of the layers (C54–C59)
-/
namespace Verif.Props
open Spec

/-! ## C54, C55: the environment layer

`Lands P var k` (Spec/Env.lean): the name of the variable, trimmed, is `P` once or more, then `k`, which does not start
with `P`. -/

/-- **C54.** A layer with prefix `pre`, which trimmed is `P` and not empty, yields a map of strings that shows at `k` the
value of the last variable that lands on `k` and has a text value; nothing, if there is none. -/
theorem C54_reads (w : World) (pre P : String) (hP : Trimmed pre P) (hne : P ≠ "") :
    ∃ v, (Layer.newEnvironment pre).readValue w = .ok v ∧ v.isMap = true ∧ UniqueKeys v ∧
      (∀ k before var after s, w.env = before ++ var :: after → Lands P var k → HasText var s →
        (∀ a ∈ after, ¬ (Lands P a k ∧ ∃ t, HasText a t)) → v.get k = .string s ∧ view v [.key k] = some (.string s)) ∧
      (∀ k, (∀ a ∈ w.env, ¬ (Lands P a k ∧ ∃ t, HasText a t)) → view v [.key k] = none) := by
  have ht : trimStr pre = P := (trimStr_iff _ _).2 hP
  have hr : (Layer.newEnvironment pre).readValue w = .ok (.map (w.env.foldl (Layer.envStep P) [])) := by
    simp only [Layer.newEnvironment, Layer.readValue, Layer.readEnv, ht]
    rw [if_neg]
    intro h; exact hne (String.isEmpty_iff.1 h)
  refine ⟨_, hr, rfl, uniqueKeys_readEnv (by simpa only [Layer.newEnvironment, Layer.readValue] using hr), ?_, ?_⟩
  · intro k before var after s h1 h2 h3 h4
    have := (foldl_envStep_get P hne k w.env []).1 before var after s h1 h2 h3 h4
    exact ⟨by simp [Value.get, this], by rw [view_key_map, this]; rfl⟩
  · intro k h
    rw [view_key_map, (foldl_envStep_get P hne k w.env []).2 h]; rfl

/-- **C54.** Exactly one of the two cases of `C54_reads` applies to each key. -/
theorem C54_cases (w : World) (P k : String) :
    (∀ a ∈ w.env, ¬ (Lands P a k ∧ ∃ t, HasText a t)) ∨
    ∃ before var after s, w.env = before ++ var :: after ∧ Lands P var k ∧ HasText var s ∧
      ∀ a ∈ after, ¬ (Lands P a k ∧ ∃ t, HasText a t) := by
  rcases exists_last (fun a => Lands P a k ∧ ∃ t, HasText a t) w.env with h | ⟨before, a, after, h1, ⟨h2, s, h3⟩, h4⟩
  · exact Or.inl h
  · exact Or.inr ⟨before, a, after, s, h1, h2, h3, h4⟩

/-- **C54.** The plain case: `P ++ k` is set to `s`, `k` does not start with `P`, there are no blanks around `P ++ k`,
and no other variable lands on `k`. Then the layer shows `s` at `k`. -/
theorem C54_plain (w : World) (pre P k s : String) (hP : Trimmed pre P) (hne : P ≠ "")
    (hset : (os (P ++ k), os s) ∈ w.env) (hk : ¬ P.toList <+: k.toList) (hb : Trimmed (P ++ k) (P ++ k))
    (honly : ∀ a ∈ w.env, Lands P a k → a = (os (P ++ k), os s)) :
    ∃ v, (Layer.newEnvironment pre).readValue w = .ok v ∧ v.get k = .string s := by
  obtain ⟨v, h1, h2, h3, h4, h5⟩ := C54_reads w pre P hP hne
  refine ⟨v, h1, ?_⟩
  have hl : Lands P (os (P ++ k), os s) k := ⟨P ++ k, P ++ k, rfl, hb, hk, 1, by omega, by simp [times]⟩
  rcases C54_cases w P k with h | ⟨before, var, after, t, h, hl', ht, ha⟩
  · exact absurd ⟨hl, s, rfl⟩ (h _ hset)
  · have : var = (os (P ++ k), os s) := honly var (by rw [h]; simp) hl'
    subst this
    have : t = s := hasText_unique ht rfl
    subst this
    exact (h4 k before _ after t h hl' ht ha).1

/-- The hypotheses of `C54_plain` on a concrete world. -/
theorem exLands : Lands "APP_" (os " APP_APP_k ", os "w") "k" :=
  ⟨" APP_APP_k ", "APP_APP_k", rfl, (trimStr_iff _ _).1 (by decide), by decide, 2, by decide, by decide⟩
example : Trimmed " APP_ " "APP_" := (trimStr_iff _ _).1 (by decide)
example : Lands "APP_" (os "APP_k", os "v") "k" :=
  ⟨"APP_k", "APP_k", rfl, (trimStr_iff _ _).1 (by decide), by decide, 1, by decide, by decide⟩
example : Trimmed ("APP_" ++ "k") ("APP_" ++ "k") := (trimStr_iff _ _).1 (by decide)

/-- **C54** at work: two variables land on `k`; the one that comes last wins. The variable `PATH` lands nowhere. -/
example : ∃ v, (Layer.newEnvironment " APP_ ").readValue exDisk = .ok v ∧ v.get "k" = .string "w" := by
  obtain ⟨v, h1, -, -, h2, -⟩ := C54_reads exDisk " APP_ " "APP_" ((trimStr_iff _ _).1 (by decide)) (by decide)
  exact ⟨v, h1, (h2 "k" [(os "APP_k", os "v"), (os "PATH", os "/bin")] _ [] "w" rfl exLands rfl (by simp)).1⟩

/-- **C55.** A prefix of nothing but blanks makes every read fail. -/
theorem C55_blank (w : World) (pre : String) (h : ∀ c ∈ pre.toList, c.toNat ∈ whiteSpace) :
    (Layer.newEnvironment pre).readValue w =
      .error (.configLayerError (.errorReadingValue "Environment prefix cannot be empty")) := by
  have : trimStr pre = "" := by
    rw [trimStr_iff]
    refine ⟨⟨pre.toList, [], by simp, h, by simp⟩, by simp, by simp⟩
  simp only [Layer.newEnvironment, Layer.readValue, Layer.readEnv, this]
  rfl

example : (Layer.newEnvironment "\t  ").readValue exDisk =
    .error (.configLayerError (.errorReadingValue "Environment prefix cannot be empty")) :=
  C55_blank exDisk "\t  " (by decide)

/-- **C55.** Only then: any other prefix can be read in every world. -/
theorem C55_readable (w : World) (pre : String) (c : Char) (hc : c ∈ pre.toList) (hw : c.toNat ∉ whiteSpace) :
    ∃ v, (Layer.newEnvironment pre).readValue w = .ok v := by
  have hne : trimStr pre ≠ "" := by
    intro h
    obtain ⟨⟨l, r, h1, h2, h3⟩, -, -⟩ := (trimStr_iff _ _).1 h
    rw [h1] at hc
    simp at hc
    rcases hc with hc | hc
    · exact hw (h2 c hc)
    · exact hw (h3 c hc)
  obtain ⟨v, h, -⟩ := C54_reads w pre _ ((trimStr_iff _ _).1 rfl) hne
  exact ⟨v, h⟩

example : ∃ v, (Layer.newEnvironment "  Ä ").readValue exDisk = .ok v :=
  C55_readable exDisk "  Ä " 'Ä' (by decide) (by decide)

/-- **C55.** Variables that land nowhere or have no text value are ignored: with or without them, the result is the
same. -/
theorem C55_junk (w w' : World) (pre P : String) (hP : Trimmed pre P) (keep : OsStr × OsStr → Bool)
    (hkeep : ∀ a ∈ w.env, keep a = false → ¬ ∃ k s, Lands P a k ∧ HasText a s) (hw : w'.env = w.env.filter keep) :
    (Layer.newEnvironment pre).readValue w' = (Layer.newEnvironment pre).readValue w := by
  have ht : trimStr pre = P := (trimStr_iff _ _).2 hP
  by_cases hne : P = ""
  · simp only [Layer.newEnvironment, Layer.readValue, Layer.readEnv, ht, hne]; rfl
  · simp only [Layer.newEnvironment, Layer.readValue, Layer.readEnv, ht, hw]
    rw [if_neg (fun h => hne (String.isEmpty_iff.1 h)), if_neg (fun h => hne (String.isEmpty_iff.1 h))]
    congr 2
    clear hw
    generalize w.env = l at hkeep
    generalize ([] : Entries) = m
    induction l generalizing m with
    | nil => rfl
    | cons a l ih =>
      have ih := ih (fun x hx => hkeep x (by simp [hx]))
      by_cases h : keep a = true
      · rw [List.filter_cons_of_pos h, List.foldl_cons, List.foldl_cons, ih]
      · rw [List.filter_cons_of_neg h, List.foldl_cons,
          (envStep_spec P hne m a).2 (hkeep a (by simp) (by simpa using h)), ih]

/-- Dropping `PATH` from the environment changes nothing for the prefix `APP_`. -/
example : (Layer.newEnvironment "APP_").readValue { exDisk with env := [(os "APP_k", os "v"), (os " APP_APP_k ", os "w")] } =
    (Layer.newEnvironment "APP_").readValue exDisk := by
  refine C55_junk exDisk _ "APP_" "APP_" ((trimStr_iff _ _).1 (by decide)) (fun a => decide (a.1 ≠ os "PATH")) ?_ (by decide)
  intro a ha hk
  have : a = (os "PATH", os "/bin") := by
    simp only [exDisk, List.mem_cons, List.not_mem_nil, or_false] at ha
    rcases ha with rfl | rfl | rfl
    · exact absurd hk (by decide)
    · rfl
    · exact absurd hk (by decide)
  subst this
  rintro ⟨k, s, ⟨name, t, h1, h2, -, n, hn, h3⟩, -⟩
  have hn' : name = "PATH" := by
    have := (osToStr_os "PATH").symm.trans ((congrArg osToStr h1).trans (osToStr_os name)); cases this; rfl
  subst hn'
  have ht : t = "PATH" := ((trimStr_iff _ _).2 h2).symm.trans (by decide)
  subst ht
  obtain ⟨m, rfl⟩ : ∃ m, n = m + 1 := ⟨n - 1, by omega⟩
  rw [times, List.replicate_succ, List.flatten_cons] at h3
  revert h3; simp

/-- **C55.** A variable lands on one key at most, and two variables land on the same key exactly if their trimmed names are
the same but for the number of times they start with the prefix. -/
theorem C55_collisions (P : String) (hne : P ≠ "") (a b : OsStr × OsStr) (k k' : String)
    (ha : Lands P a k) (hb : Lands P b k') :
    (∀ j, Lands P a j → j = k) ∧
    (k = k' ↔ ∃ s t tail n m, a.1 = os s ∧ b.1 = os t ∧ ∃ s' t', Trimmed s s' ∧ Trimmed t t' ∧
      ¬ P.toList <+: tail ∧ s'.toList = times n P.toList ++ tail ∧ t'.toList = times m P.toList ++ tail) := by
  refine ⟨fun j hj => lands_unique hne hj ha, ?_⟩
  constructor
  · rintro rfl
    obtain ⟨s, s', h1, h2, h3, n, hn, h4⟩ := ha
    obtain ⟨t, t', g1, g2, g3, m, hm, g4⟩ := hb
    exact ⟨s, t, k.toList, n, m, h1, g1, s', t', h2, g2, h3, h4, g4⟩
  · rintro ⟨s, t, tail, n, m, e1, e2, s', t', e3, e4, e5, e6, e7⟩
    have hPl : P.toList ≠ [] := by
      intro h; apply hne; rw [← String.ofList_toList (s := P), h]
    have aux : ∀ {x : OsStr × OsStr} {y : String} {u u' : String} {q : Nat}, Lands P x y → x.1 = os u → Trimmed u u' →
        u'.toList = times q P.toList ++ tail → y.toList = tail := by
      rintro x y u u' q ⟨v, v', h1, h2, h3, n', hn', h4⟩ hx hu hq
      have : u = v := by
        have := osToStr_os u
        rw [← hx, h1, osToStr_os] at this
        exact (Option.some.inj this).symm
      subst this
      have : u' = v' := by rw [← (trimStr_iff _ _).2 h2, (trimStr_iff _ _).2 hu]
      subst this
      exact (times_unique hPl h3 e5 n' q (by rw [← h4, hq])).2
    rw [← String.ofList_toList (s := k), aux ha e1 e3 e6, ← aux hb e2 e4 e7, String.ofList_toList]

/-- `APP_k` and ` APP_APP_k ` are the same key. -/
example : ∃ s t tail n m, os "APP_k" = os s ∧ os " APP_APP_k " = os t ∧ ∃ s' t', Trimmed s s' ∧ Trimmed t t' ∧
    ¬ "APP_".toList <+: tail ∧ s'.toList = times n "APP_".toList ++ tail ∧ t'.toList = times m "APP_".toList ++ tail :=
  (C55_collisions "APP_" (by decide) (os "APP_k", os "v") (os " APP_APP_k ", os "w") "k" "k"
    ⟨"APP_k", "APP_k", rfl, (trimStr_iff _ _).1 (by decide), by decide, 1, by decide, by decide⟩ exLands).2.1 rfl

/-- **C55.** Collisions are real: two variables of one environment on one key; the later one is shown. -/
theorem C55_collision_witness :
    ∃ (w : World) (v : Value), w.env = [(os "APP_k", os "v"), (os "APP_APP_k", os "w")] ∧
      (Layer.newEnvironment "APP_").readValue w = .ok v ∧ v.get "k" = .string "w" :=
  ⟨{ exDisk with env := [(os "APP_k", os "v"), (os "APP_APP_k", os "w")] }, .map [("k", .string "w")], rfl, rfl, rfl⟩

/-! ## C56: reading a file layer -/

/-- **C56.** A file that does not exist reads as the empty map, without error. -/
theorem C56_missing (h : FileHandler) (w : World) (path : OsStr) (hm : w.pathExists path = false) :
    (Layer.newFile h path).readValue w = .ok (.map []) := by
  simp [Layer.newFile, Layer.readValue, hm, Value.newMap]

example : (Layer.newFile (textHandler exCodec) (os "/z.toml")).readValue exDisk = .ok (.map []) :=
  C56_missing _ exDisk _ (by decide)

/-- **C56.** A file that exists reads as `v` exactly if it can be read, holds the UTF-8 of a text, and the format turns this
text into a document that stands for `v`. -/
theorem C56_content (c : Codec) (w : World) (path : OsStr) (he : w.pathExists path = true) (v : Value) :
    (Layer.newFile (textHandler c) path).readValue w = .ok v ↔
      ∃ text doc writeErr, w.disk (w.locate path) = .file (utf8 text) none writeErr ∧ c.parse text = .ok doc ∧
        visit doc = .ok v := by
  simp only [Layer.newFile, Layer.readValue, he, if_true, textHandler_read, readToString_ok]
  constructor
  · rintro ⟨text, doc, ⟨wr, h1⟩, h2, h3⟩; exact ⟨text, doc, wr, h1, h2, h3⟩
  · rintro ⟨text, doc, wr, h1, h2, h3⟩; exact ⟨text, doc, ⟨wr, h1⟩, h2, h3⟩

example : ∃ text doc writeErr, exDisk.disk (exDisk.locate (os "/a.toml")) = .file (utf8 text) none writeErr ∧
    exCodec.parse text = .ok doc ∧ visit doc = .ok (.map [("text", .string "hi")]) :=
  (C56_content exCodec exDisk (os "/a.toml") (by decide) _).1 rfl

/-- **C56.** The errors: an `IoError` if the file cannot be read as text, else a `ParseError` with the message of the format
or of the visitor. -/
theorem C56_errors (c : Codec) (w : World) (path : OsStr) (x : BakuninError)
    (h : (Layer.newFile (textHandler c) path).readValue w = .error x) :
    w.pathExists path = true ∧
    ((∃ e, x = .ioError e ∧ ∀ text writeErr, w.disk (w.locate path) ≠ .file (utf8 text) none writeErr) ∨
     (∃ text writeErr msg, w.disk (w.locate path) = .file (utf8 text) none writeErr ∧ x = .configLayerError (.parseError msg) ∧
       (c.parse text = .error msg ∨ ∃ doc, c.parse text = .ok doc ∧ visit doc = .error msg))) := by
  simp only [Layer.newFile, Layer.readValue] at h
  split at h
  · rename_i he
    refine ⟨he, ?_⟩
    simp only [textHandler] at h
    split at h
    · rename_i e hr
      cases h
      left
      refine ⟨e, rfl, ?_⟩
      intro text wr hd
      rw [(read_text hd).1] at hr; cases hr
    · rename_i text hr
      obtain ⟨wr, hd⟩ := readToString_ok.1 hr
      right
      split at h
      · rename_i msg hp
        cases h
        exact ⟨text, wr, msg, hd, rfl, Or.inl hp⟩
      · rename_i doc hp
        split at h
        · rename_i msg hv
          cases h
          exact ⟨text, wr, msg, hd, rfl, Or.inr ⟨doc, hp, hv⟩⟩
        · cases h
  · cases h

/-- The malformed file: the parser's message. -/
example : ∃ text wr msg, exDisk.disk (exDisk.locate (os "/b.toml")) = .file (utf8 text) none wr ∧
    BakuninError.configLayerError (.parseError "syntax") = .configLayerError (.parseError msg) := by
  obtain ⟨-, ⟨e, h, -⟩ | ⟨text, wr, msg, h1, h2, -⟩⟩ := C56_errors exCodec exDisk (os "/b.toml") _ rfl
  · cases h
  · exact ⟨text, wr, msg, h1, h2⟩

/-- **C56**, by what is at the place the path names: nothing is an empty map; something that is not a file (a directory), a file that may not be
read, and a file that is not the UTF-8 of a text are errors with the error of the OS (nothing of them counts as missing); otherwise it is what the format
makes of the text. -/
theorem C56_disk (c : Codec) (w : World) (path : OsStr) :
    (w.pathExists path = false ↔ ∃ refuse, w.disk (w.locate path) = .absent refuse) ∧
    (∀ refuse, w.disk (w.locate path) = .absent refuse → (Layer.newFile (textHandler c) path).readValue w = .ok (.map [])) ∧
    (∀ code, w.disk (w.locate path) = .other code → (Layer.newFile (textHandler c) path).readValue w = .error (.ioError (.refused code))) ∧
    (∀ bs code wr, w.disk (w.locate path) = .file bs (some code) wr →
      (Layer.newFile (textHandler c) path).readValue w = .error (.ioError (.refused code))) ∧
    (∀ bs wr, w.disk (w.locate path) = .file bs none wr → (∀ text, bs ≠ utf8 text) →
      (Layer.newFile (textHandler c) path).readValue w = .error (.ioError .invalidData)) ∧
    (∀ text wr, w.disk (w.locate path) = .file (utf8 text) none wr →
      (∀ msg, c.parse text = .error msg → (Layer.newFile (textHandler c) path).readValue w = .error (.configLayerError (.parseError msg))) ∧
      (∀ doc msg, c.parse text = .ok doc → visit doc = .error msg →
        (Layer.newFile (textHandler c) path).readValue w = .error (.configLayerError (.parseError msg))) ∧
      ∀ doc v, c.parse text = .ok doc → visit doc = .ok v → (Layer.newFile (textHandler c) path).readValue w = .ok v) := by
  refine ⟨?_, ?_, ?_, ?_, ?_, ?_⟩
  · unfold World.pathExists
    split
    · rename_i r h; simp [h]
    · rename_i h; simpa using h
  · intro r h
    simp [Layer.newFile, Layer.readValue, World.pathExists, h, Value.newMap]
  · intro code h
    simp [Layer.newFile, Layer.readValue, World.pathExists, h, textHandler, World.readToString]
  · intro bs code wr h
    simp [Layer.newFile, Layer.readValue, World.pathExists, h, textHandler, World.readToString]
  · intro bs wr h hb
    have : ofUtf8 bs = none := by
      cases ht : ofUtf8 bs with
      | none => rfl
      | some t => exact absurd (utf8_of_ofUtf8 ht) (hb t)
    simp [Layer.newFile, Layer.readValue, World.pathExists, h, textHandler, World.readToString, this]
  · intro text wr h
    have hr : w.readToString path = .ok text := (read_text h).1
    refine ⟨?_, ?_, ?_⟩
    · intro msg hp
      simp [Layer.newFile, Layer.readValue, World.pathExists, h, textHandler, hr, hp]
    · intro doc msg hp hv
      simp [Layer.newFile, Layer.readValue, World.pathExists, h, textHandler, hr, hp, hv]
    · intro doc v hp hv
      simp [Layer.newFile, Layer.readValue, World.pathExists, h, textHandler, hr, hp, hv]

/-- A directory in the place of the file is an error, not a missing file. -/
example : (Layer.newFile (textHandler exCodec) (os "/d.toml")).readValue { exDisk with disk := fun _ => .other 21 } = .error (.ioError (.refused 21)) :=
  (C56_disk exCodec { exDisk with disk := fun _ => .other 21 } (os "/d.toml")).2.2.1 21 rfl

/-- **C56.** A registered file that is missing has no influence on what is built. -/
theorem C56_missing_no_effect (b : Build) (fm : Formats) (calls : List RegCall) (name : String) (path : OsStr) (w : World)
    (skip : Bool) (v : Value) (hm : w.pathExists path = false)
    (h : (register b fm calls).buildValue w skip = .ok v) :
    (register b fm (calls ++ [.file name path])).buildValue w skip = .ok v := by
  cases ho : (RegCall.file name path).offer b fm with
  | none =>
    have : register b fm (calls ++ [.file name path]) = register b fm calls := by
      unfold register
      rw [List.foldl_append, List.foldl_cons, List.foldl_nil, RegCall.apply, addFileLayer_eq, ho]
    rw [this, h]
  | some e =>
    by_cases hn : ∃ a ∈ offers b fm calls, a.1 = e.1
    · rw [C11_taken b fm calls _ e ho hn, h]
    · have hr : e.2.readValue w = .ok (.map []) := by
        simp only [RegCall.offer] at ho
        split at ho
        · cases ho; exact C56_missing _ w path hm
        · split at ho
          · cases ho; exact C56_missing _ w path hm
          · cases ho
      rw [C14_add_last b fm calls _ w skip e _ v ho (fun a ha e => hn ⟨a, ha, e⟩) hr h, C02_merge_empty]

example : exDisk.pathExists (os "/a.toml") = true ∧ exDisk.pathExists (os "/z.toml") = false := by decide
example : (Layer.newFile (textHandler exCodec) (os "/a.toml")).readValue exDisk = .ok (.map [("text", .string "hi")]) := rfl
example : (Layer.newFile (textHandler exCodec) (os "/b.toml")).readValue exDisk =
    .error (.configLayerError (.parseError "syntax")) := rfl

/-! ## C57: writing a file layer -/

/-- **C57.** Writing: the value is printed first; if that fails, or the OS does not open the file, nothing has changed. If the OS
stops half-way, the file holds the beginning of the new text. Otherwise `Ok`, and the file holds the new text. In every case
nothing but this file changes. -/
theorem C57_write (c : Codec) (w : World) (path : OsStr) (v : Value) (res : Except BakuninError Unit) (w' : World)
    (h : (Layer.newFile (textHandler c) path).writeValue w v = (res, w')) :
    (w' = { w with disk := w'.disk } ∧ ∀ s, s ≠ w.locate path → w'.disk s = w.disk s) ∧
    ((∃ msg, c.print v.toData = .error msg ∧ res = .error (.configLayerError (.serializeError msg)) ∧ w' = w) ∨
     (∃ text e, c.print v.toData = .ok text ∧ w.openTrunc path = .error e ∧ res = .error (.ioError e) ∧ w' = w) ∨
     (∃ text n code r, c.print v.toData = .ok text ∧ w.room (w.locate path) = some (n, code) ∧
       n < (utf8 text).length ∧ res = .error (.ioError (.refused code)) ∧
       w'.disk (w.locate path) = .file ((utf8 text).take n) r none) ∨
     (∃ text r, c.print v.toData = .ok text ∧ res = .ok () ∧ w'.disk (w.locate path) = .file (utf8 text) r none ∧
       (r = none ∨ ∃ bs, w.disk (w.locate path) = .file bs r none))) := by
  simp only [Layer.newFile, Layer.writeValue, textHandler] at h
  cases hp : c.print v.toData with
  | error msg =>
    rw [hp] at h; cases h
    exact ⟨OnlyAt.refl _ _, Or.inl ⟨msg, rfl, rfl, rfl⟩⟩
  | ok text =>
    rw [hp] at h
    rcases fsWrite_cases w path text with ⟨e, h1, h2⟩ | ⟨n, code, w1, h1, h2, h3, h4⟩ | ⟨w1, h1, h2, h3⟩
    · simp only [h1] at h; cases h
      exact ⟨OnlyAt.refl _ _, Or.inr (Or.inl ⟨text, e, rfl, h2, rfl, rfl⟩)⟩
    · simp only [h4] at h; cases h
      obtain ⟨ho, r, hd, -⟩ := onlyAt_open h1
      refine ⟨ho.trans (onlyAt_append _ _ _), Or.inr (Or.inr (Or.inl ⟨text, n, code, r, rfl, h2, h3, rfl, ?_⟩))⟩
      rw [append_file hd]; rfl
    · simp only [h3] at h; cases h
      obtain ⟨ho, r, hd, hcase⟩ := onlyAt_open h1
      refine ⟨ho.trans (onlyAt_append _ _ _), Or.inr (Or.inr (Or.inr ⟨text, r, rfl, rfl, ?_, ?_⟩))⟩
      · rw [append_file hd]; rfl
      · rcases hcase with ⟨-, rfl⟩ | hc
        · exact Or.inl rfl
        · exact Or.inr hc

/-- A write that succeeds: nothing but the file changes. -/
example (res : Except BakuninError Unit) (w' : World)
    (h : (Layer.newFile (textHandler exCodec) (os "/a.toml")).writeValue exDisk (.map [("text", .string "x")]) = (res, w')) :
    (∀ s, s ≠ 1 → w'.disk s = exDisk.disk s) ∧ w'.env = exDisk.env := by
  obtain ⟨⟨h1, h2⟩, -⟩ := C57_write exCodec exDisk (os "/a.toml") (.map [("text", .string "x")]) res w' h
  exact ⟨h2, by rw [h1]⟩

/-- **C57.** After a successful write to a file that did not exist or could be read, the layer reads what the format
makes of the text it printed: if the format reads its own text back as `v'`, the layer reads `v'`. -/
theorem C57_read_back (c : Codec) (w w' : World) (path : OsStr) (v v' : Value) (text : String) (doc : Doc)
    (hok : (Layer.newFile (textHandler c) path).writeValue w v = (.ok (), w'))
    (hread : ∀ bs code wr, w.disk (w.locate path) ≠ .file bs (some code) wr)
    (hp : c.print v.toData = .ok text) (hq : c.parse text = .ok doc) (hv : visit doc = .ok v') :
    (Layer.newFile (textHandler c) path).readValue w' = .ok v' := by
  obtain ⟨h0, h⟩ := C57_write c w path v _ w' hok
  rcases h with ⟨msg, -, h, -⟩ | ⟨_, e, -, -, h, -⟩ | ⟨_, n, code, r, -, -, -, h, -⟩ | ⟨text', r, h1, -, h2, h3⟩
  · cases h
  · cases h
  · cases h
  · rw [hp] at h1; cases h1
    have hr : r = none := by
      rcases h3 with rfl | ⟨bs, hd⟩
      · rfl
      · cases r with
        | none => rfl
        | some code => exact absurd hd (hread bs code none)
    subst hr
    have hl : w'.locate path = w.locate path := by rw [h0.1]
    have hd' : w'.disk (w'.locate path) = .file (utf8 text) none none := by rw [hl]; exact h2
    rw [C56_content c w' path (read_text hd').2]
    exact ⟨text, doc, none, hd', hq, hv⟩

example (w' : World)
    (h : (Layer.newFile (textHandler exCodec) (os "/a.toml")).writeValue exDisk (.map [("text", .string "x")]) = (.ok (), w')) :
    (Layer.newFile (textHandler exCodec) (os "/a.toml")).readValue w' = .ok (.map [("text", .string "x")]) :=
  C57_read_back exCodec exDisk w' (os "/a.toml") (.map [("text", .string "x")]) (.map [("text", .string "x")]) "x"
    (.map [(.str "text", .str "x")]) h
    (by intro bs code wr hd
        have e : exDisk.disk (exDisk.locate (os "/a.toml")) = .file (utf8 "hi") none none := by rfl
        rw [e] at hd; cases hd) rfl rfl rfl
example : ∃ w', (Layer.newFile (textHandler exCodec) (os "/a.toml")).writeValue exDisk (.map [("text", .string "x")]) = (.ok (), w') :=
  ⟨_, rfl⟩

/-- **C57.** Whatever a write does, every layer that is not at the same place of the disk reads as before. -/
theorem C57_others (c c' : Codec) (w : World) (path : OsStr) (v : Value) :
    (∀ path', w.locate path' ≠ w.locate path →
      (Layer.newFile (textHandler c') path').readValue ((Layer.newFile (textHandler c) path).writeValue w v).2 =
        (Layer.newFile (textHandler c') path').readValue w) ∧
    (∀ pre, (Layer.newEnvironment pre).readValue ((Layer.newFile (textHandler c) path).writeValue w v).2 =
        (Layer.newEnvironment pre).readValue w) ∧
    (∀ x, (Layer.newMemory x).readValue ((Layer.newFile (textHandler c) path).writeValue w v).2 =
        (Layer.newMemory x).readValue w) := by
  generalize hw : (Layer.newFile (textHandler c) path).writeValue w v = rw'
  obtain ⟨res, w'⟩ := rw'
  obtain ⟨⟨h0, h1⟩, -⟩ := C57_write c w path v res w' hw
  refine ⟨?_, ?_, fun x => rfl⟩
  · intro path' hne
    have hd : w'.disk (w'.locate path') = w.disk (w.locate path') := by
      have : w'.locate = w.locate := by rw [h0]
      rw [this]; exact h1 _ hne
    simp only [Layer.newFile, Layer.readValue, textHandler, pathExists_congr hd, readToString_congr hd]
  · intro pre
    have : w'.env = w.env := by rw [h0]
    simp only [Layer.newEnvironment, Layer.readValue, Layer.readEnv, this]

/-- The example format reads back what it prints: the hypotheses of `C57_read_back` on a concrete world. -/
example : ∃ w' text doc, (Layer.newFile (textHandler exCodec) (os "/z.toml")).writeValue exDisk (.map [("text", .string "x")]) = (.ok (), w') ∧
    exCodec.print (Value.map [("text", .string "x")]).toData = .ok text ∧ exCodec.parse text = .ok doc ∧
    visit doc = .ok (.map [("text", .string "x")]) := ⟨_, "x", _, rfl, rfl, rfl, rfl⟩

/-! ## C58: read-only layers -/

/-- **C58.** Memory and environment layers refuse every write and change nothing. -/
theorem C58_read_only (w : World) (v x : Value) (pre : String) :
    (Layer.newMemory x).writeValue w v = (.error (.configLayerError .writeNotSupported), w) ∧
    (Layer.newEnvironment pre).writeValue w v = (.error (.configLayerError .writeNotSupported), w) := ⟨rfl, rfl⟩

/-- **C58.** `can_write` is `false` for every layer of the crate in every world, yet a write to a file layer can succeed. -/
theorem C58_can_write_lies :
    (∀ b fm c e w, RegCall.BuiltIn c → c.offer b fm = some e → e.2.canWrite w = false) ∧
    ∃ c path w v w', (Layer.newFile (textHandler c) path).canWrite w = false ∧
      (Layer.newFile (textHandler c) path).writeValue w v = (.ok (), w') := by
  constructor
  · intro b fm c e w hb ho
    cases c with
    | layer => exact hb.elim
    | memory => cases ho; rfl
    | environment => cases ho; rfl
    | file n p =>
      simp only [RegCall.offer] at ho
      split at ho
      · cases ho; rfl
      · split at ho
        · cases ho; rfl
        · cases ho
  · exact ⟨exCodec, os "/z.toml", exDisk, .map [("text", .string "x")], _, rfl, rfl⟩

example (w : World) : ∀ e, RegCall.offer exB1 exFormats (.file "f" (os "/a.toml")) = some e → e.2.canWrite w = false :=
  fun e he => C58_can_write_lies.1 exB1 exFormats (.file "f" (os "/a.toml")) e w trivial he

/-- **C58.** `has_value` is `true` for memory and environment layers (even if they cannot be read), and tells for a file layer whether
the file exists. -/
theorem C58_has_value (w : World) (x : Value) (pre : String) (h : FileHandler) (path : OsStr) :
    (Layer.newMemory x).hasValue w = true ∧ (Layer.newEnvironment pre).hasValue w = true ∧
    (Layer.newFile h path).hasValue w = w.pathExists path := ⟨rfl, rfl, rfl⟩

/-- **C58.** After any history of registrations, further registered or not, a name first given to a memory layer stands for a layer that yields
exactly the given value, in every world and whatever was written to it; `get_name` tells the kind of every layer of the crate. -/
theorem C58_memory_fixed (b : Build) (fm : Formats) (before after : List RegCall) (name : String) (v : Value)
    (hnew : ∀ e ∈ offers b fm before, e.1 ≠ name) :
    ∃ l, (register b fm (before ++ .memory name v :: after)).getLayer name = some l ∧ l.getName = "Memory" ∧
      ∀ w x, l.readValue w = .ok v ∧ l.readValue (l.writeValue w x).2 = .ok v := by
  refine ⟨.memory v, ?_, rfl, fun w x => ⟨rfl, rfl⟩⟩
  rw [(C11_first_wins b fm _ name).1]
  have hnone : (offers b fm before).find? (fun e => e.1 == name) = none :=
    List.find?_eq_none.2 fun e he => by simpa using hnew e he
  unfold offers at hnone ⊢
  rw [List.filterMap_append, List.find?_append, hnone, Option.none_or, List.filterMap_cons]
  simp [RegCall.offer]

/-- A memory layer between others; later registrations of the name do not matter. -/
example : ∃ l, (register exB1 exFormats ([.environment "env" "A_"] ++ .memory "d" (.string "x") :: [.file "d" (os "/a.toml")])).getLayer
    "d" = some l ∧ l.getName = "Memory" ∧ ∀ w x, l.readValue w = .ok (.string "x") ∧ l.readValue (l.writeValue w x).2 = .ok (.string "x") :=
  C58_memory_fixed exB1 exFormats [.environment "env" "A_"] [.file "d" (os "/a.toml")] "d" (.string "x") (by decide)

/-- **C58.** `get_name` of whatever a registration call of the crate offers is the kind of the call. -/
theorem C58_names (b : Build) (fm : Formats) (c : RegCall) (e : String × Layer) (ho : c.offer b fm = some e) :
    match c with
    | .memory _ _ => e.2.getName = "Memory"
    | .environment _ _ => e.2.getName = "Environment"
    | .file _ _ => e.2.getName = "File"
    | .layer _ l => e.2 = l := by
  cases c with
  | memory => cases ho; rfl
  | environment => cases ho; rfl
  | layer => cases ho; rfl
  | file n p =>
    simp only [RegCall.offer] at ho
    split at ho
    · cases ho; rfl
    · split at ho
      · cases ho; rfl
      · cases ho

example : ∀ e ∈ offers exB1 exFormats [.environment "env" "A_"], e.1 ≠ "d" := by decide

/-! ## C59: crashes -/

/-- **C59.** In whatever world the process dies during `write_value`: nothing at all has changed; or the file holds a
beginning of the new text (its old content is gone) and nothing else has changed. -/
theorem C59_crash (c : Codec) (path : OsStr) (v : Value) (w w' : World) (h : CrashWorld c path v w w') :
    w' = w ∨
    (∃ text done r, c.print v.toData = .ok text ∧ done <+: utf8 text ∧ w'.disk (w.locate path) = .file done r none ∧
      w' = { w with disk := w'.disk } ∧ ∀ s, s ≠ w.locate path → w'.disk s = w.disk s) := by
  rcases h with rfl | ⟨content, ph, hp, hs⟩
  · exact Or.inl rfl
  · rcases writeSteps_inv hs with h | ⟨done, rest, w1, h1, h2, h3, h4⟩
    · cases h; exact Or.inl rfl
    · right
      obtain ⟨ho, r, hd, -⟩ := onlyAt_open h3
      dsimp only at h4
      subst h4
      have := ho.trans (onlyAt_append w1 (w.locate path) done)
      exact ⟨content, done, r, hp, ⟨rest, h2⟩, by rw [append_file hd]; rfl, this.1, this.2⟩

/-- **C59.** Every beginning of the new text can be what is left, if the file can be opened for writing. -/
theorem C59_every_prefix (c : Codec) (path : OsStr) (v : Value) (w w1 : World) (text : String) (done : List UInt8)
    (hp : c.print v.toData = .ok text) (ho : w.openTrunc path = .ok w1) (hd : done <+: utf8 text) :
    ∃ w' r, CrashWorld c path v w w' ∧ w'.disk (w.locate path) = .file done r none := by
  obtain ⟨rest, hrest⟩ := hd
  obtain ⟨hat, r, hdisk, -⟩ := onlyAt_open ho
  refine ⟨w1.appendBytes (w1.locate path) done, r, Or.inr ⟨text, .writing rest, hp, ?_⟩, ?_⟩
  · refine .step (.step .refl (.opened ho)) ?_
    rw [← hrest]
    exact .piece
  · rw [hat.locate, append_file hdisk]; rfl

/-- A process that dies after `a` of `abc` was written, over an existing file. -/
example : ∃ w' r, CrashWorld exCodec (os "/a.toml") (.map [("text", .string "abc")]) exDisk w' ∧
    w'.disk 1 = .file (utf8 "a") r none :=
  C59_every_prefix exCodec (os "/a.toml") (.map [("text", .string "abc")]) exDisk _ "abc" (utf8 "a") rfl rfl
    ⟨utf8 "bc", by decide⟩

/-- And what **C59** says of it. -/
example (w' : World) (h : CrashWorld exCodec (os "/a.toml") (.map [("text", .string "abc")]) exDisk w') :
    w' = exDisk ∨ ∃ done r, done <+: utf8 "abc" ∧ w'.disk 1 = .file done r none := by
  rcases C59_crash exCodec (os "/a.toml") _ exDisk w' h with h | ⟨text, done, r, h1, h2, h3, -⟩
  · exact Or.inl h
  · cases h1; exact Or.inr ⟨done, r, h2, h3⟩

/-- **C59.** The world after a finished `write_value`, successful or not, is one of these worlds. -/
theorem C59_end (c : Codec) (path : OsStr) (v : Value) (w : World) :
    CrashWorld c path v w ((Layer.newFile (textHandler c) path).writeValue w v).2 := by
  simp only [Layer.newFile, Layer.writeValue, textHandler]
  cases hp : c.print v.toData with
  | error msg => exact Or.inl rfl
  | ok text =>
    dsimp only
    have key : ∀ w1 done rest, w.openTrunc path = .ok w1 → done ++ rest = utf8 text →
        CrashWorld c path v w (w1.appendBytes (w.locate path) done) := by
      intro w1 done rest ho hd
      refine Or.inr ⟨text, .writing rest, hp, .step (.step .refl (.opened ho)) ?_⟩
      rw [← hd, ← (onlyAt_open ho).1.locate]
      exact .piece
    rcases fsWrite_cases w path text with ⟨e, h1, h2⟩ | ⟨n, code, w1, h1, h2, h3, h4⟩ | ⟨w1, h1, h2, h3⟩
    · rw [h1]; exact Or.inl rfl
    · rw [h4]; exact key w1 _ ((utf8 text).drop n) h1 (List.take_append_drop _ _)
    · rw [h3]; exact key w1 _ [] h1 (List.append_nil _)

/-- **C59.** So an existing content can be lost: a crash that leaves the file empty. -/
theorem C59_loss : ∃ (c : Codec) (path : OsStr) (v : Value) (w w' : World) (old : List UInt8),
    w.disk (w.locate path) = .file old none none ∧ old ≠ [] ∧ CrashWorld c path v w w' ∧
    w'.disk (w.locate path) = .file [] none none := by
  refine ⟨exCodec, os "/a.toml", .map [("text", .string "x")], exDisk, exDisk.put 1 (.file [] none none), utf8 "hi", rfl,
    by decide, ?_, rfl⟩
  exact Or.inr ⟨"x", .writing (utf8 "x"), rfl, .step .refl (.opened rfl)⟩

end Verif.Props
