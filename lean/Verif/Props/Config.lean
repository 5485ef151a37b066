import Verif.Lemmas.Config
import Verif.Props.Merge
/-!
# Properties of the configuration builder (C07–C14)

A configuration is what a history of registration calls makes of the empty one: `register b fm calls`, for a build
`b` and text formats `fm` (arbitrary functions). `firsts (offers b fm calls)` are the layers it holds: for each name the
first layer offered under it (`C11_first_wins`).

`Proper l` says that the layer yields values in which no map has a key twice. Rust guarantees this of every layer;
`C08_builtin_proper` proves it for the crate's own.
-/
namespace Verif.Props
open Spec

/-! ## Example -/

/-- A format for the examples: a text is a string; nothing can be printed but strings. -/
def exCodec : Codec :=
  { parse := fun s => if s = "bad" then .error "syntax" else .ok (.map [(.str "text", .str s)]),
    print := fun d => match d with | .map [(.str "text", .str s)] => .ok s | _ => .error "unsupported" }
def exFormats : Formats := ⟨exCodec, exCodec⟩
def exB1 : Build := { toml := true, json := false, overflowChecks := true }
/-- A disk with a good file at place 1 (`/a.toml`), a malformed one at place 2 (`/b.toml`) and nothing elsewhere. -/
def exDisk : World :=
  { locate := fun p => if p = os "/a.toml" then 1 else if p = os "/b.toml" then 2 else 3,
    disk := fun s => if s = 1 then .file (utf8 "hi") none none else if s = 2 then .file (utf8 "bad") none none else .absent none,
    room := fun _ => none,
    env := [(os "APP_k", os "v"), (os "PATH", os "/bin"), (os " APP_APP_k ", os "w")],
    baseDirs := none, cwd := none }
def exCalls : List RegCall :=
  [.memory "d" (.map [("k", .string "old"), ("text", .map [("x", .none)])]), .file "f" (os "/a.toml"),
   .file "g" (os "/b.toml"), .environment "e" " APP_ ", .memory "d" (.string "ignored"), .file "h" (os "/c.yaml")]

theorem exCalls_names : (firsts (offers exB1 exFormats exCalls)).map Prod.fst = ["d", "f", "g", "e"] := by decide

/-! ## C07 -/

theorem build_speaks {w : World} {ls : List (String × Layer)} (hp : ∀ e ∈ ls, Proper e.2) (p : Path) :
    (∀ pre e post x, ls = pre ++ e :: post → e.2.readValue w = .ok x → x.isMap = true → ¬ Silent x p →
      (∀ a ∈ post, ¬ Speaks w a.2 p) → view ((readables w ls).foldl Value.merge Value.newMap) p = view x p) ∧
    ((∀ e ∈ ls, ¬ Speaks w e.2 p) → view ((readables w ls).foldl Value.merge Value.newMap) p = view Value.newMap p) := by
  have hu : ∀ x ∈ readables w ls, UniqueKeys x := by
    intro x hx
    obtain ⟨e, he, h⟩ := List.mem_filterMap.1 hx
    cases hr : e.2.readValue w with
    | error y => rw [hr] at h; cases h
    | ok y => rw [hr] at h; cases h; exact hp e he w x hr
  constructor
  · intro pre e post x hls hx hm hs hpost
    subst hls
    have hr : readables w (pre ++ e :: post) = readables w pre ++ x :: readables w post := by
      unfold readables
      rw [List.filterMap_append, List.filterMap_cons, hx]; rfl
    rw [hr] at hu ⊢
    rw [List.foldl_append, List.foldl_cons]
    have h0 : ((readables w pre).foldl Value.merge Value.newMap).isMap = true := by rw [isMap_foldl_merge]; rfl
    rw [view_foldl_silent]
    · exact (view_merge' h0 hm (hu x (by simp)) p).2 hs
    · rw [isMap_merge]; exact h0
    · intro y hy; exact hu y (by simp [hy])
    · intro y hy hym
      obtain ⟨a, ha, h⟩ := List.mem_filterMap.1 hy
      cases hra : a.2.readValue w with
      | error z => rw [hra] at h; cases h
      | ok z =>
        rw [hra] at h; cases h
        exact Classical.byContradiction fun hns => hpost a ha ⟨y, hra, hym, hns⟩
  · intro hno
    apply view_foldl_silent _ _ _ rfl hu
    intro y hy hym
    obtain ⟨a, ha, h⟩ := List.mem_filterMap.1 hy
    cases hra : a.2.readValue w with
    | error z => rw [hra] at h; cases h
    | ok z =>
      rw [hra] at h; cases h
      exact Classical.byContradiction fun hns => hno a ha ⟨y, hra, hym, hns⟩

theorem build_ok {b : Build} {fm : Formats} {calls : List RegCall} {w : World} {skip : Bool} {v : Value}
    (h : (register b fm calls).buildValue w skip = .ok v) :
    v = (readables w (firsts (offers b fm calls))).foldl Value.merge Value.newMap := by
  rw [buildValue_is (is_register b fm calls)] at h
  cases skip with
  | true => rw [buildList_true] at h; cases h; rfl
  | false => exact (((buildList_false w _ _).1 v).1 h).2

/-- **C07.** Whatever was registered, a successful `build_value` shows at every path what the last layer that
speaks about the path shows there. -/
theorem C07_last_speaker (b : Build) (fm : Formats) (calls : List RegCall) (w : World) (skip : Bool) (v : Value)
    (h : (register b fm calls).buildValue w skip = .ok v)
    (hp : ∀ e ∈ firsts (offers b fm calls), Proper e.2) (p : Path)
    (before : List (String × Layer)) (e : String × Layer) (after : List (String × Layer)) (x : Value)
    (hls : firsts (offers b fm calls) = before ++ e :: after)
    (hx : e.2.readValue w = .ok x) (hm : x.isMap = true) (hs : ¬ Silent x p)
    (hlast : ∀ a ∈ after, ¬ Speaks w a.2 p) :
    view v p = view x p := by
  rw [build_ok h]
  exact (build_speaks hp p).1 before e after x hls hx hm hs hlast

/-- **C07.** Where no layer speaks, the built value shows nothing (the value itself is a map). -/
theorem C07_nobody_speaks (b : Build) (fm : Formats) (calls : List RegCall) (w : World) (skip : Bool) (v : Value)
    (h : (register b fm calls).buildValue w skip = .ok v)
    (hp : ∀ e ∈ firsts (offers b fm calls), Proper e.2) (p : Path)
    (hno : ∀ e ∈ firsts (offers b fm calls), ¬ Speaks w e.2 p) :
    view v p = if p = [] then some .map else none := by
  rw [build_ok h, (build_speaks hp p).2 hno]
  cases p with
  | nil => rfl
  | cons s p => cases s <;> rfl

/-- One of the two cases applies to every path. -/
theorem C07_cases (w : World) (ls : List (String × Layer)) (p : Path) :
    (∀ e ∈ ls, ¬ Speaks w e.2 p) ∨
    ∃ before e after x, ls = before ++ e :: after ∧ e.2.readValue w = .ok x ∧ x.isMap = true ∧ ¬ Silent x p ∧
      ∀ a ∈ after, ¬ Speaks w a.2 p := by
  induction ls with
  | nil => left; simp
  | cons a ls ih =>
    rcases ih with h | ⟨before, e, after, x, rfl, h⟩
    · by_cases ha : Speaks w a.2 p
      · obtain ⟨x, h1, h2, h3⟩ := ha
        exact Or.inr ⟨[], a, ls, x, rfl, h1, h2, h3, h⟩
      · left
        intro e he
        rcases List.mem_cons.1 he with rfl | he
        · exact ha
        · exact h e he
    · exact Or.inr ⟨a :: before, e, after, x, rfl, h⟩

/-! ## C08 -/

/-- **C08.** A successful build is a map; with layers that yield values without repeated keys, it has none. -/
theorem C08_map (b : Build) (fm : Formats) (calls : List RegCall) (w : World) (skip : Bool) (v : Value)
    (h : (register b fm calls).buildValue w skip = .ok v) :
    v.isMap = true ∧ ((∀ e ∈ firsts (offers b fm calls), Proper e.2) → UniqueKeys v) := by
  rw [build_ok h]
  refine ⟨by rw [isMap_foldl_merge]; rfl, fun hp => ?_⟩
  apply uniqueKeys_foldl_merge
  · exact uniqueKeys_map.2 ⟨List.nodup_nil, by simp⟩
  · intro x hx
    obtain ⟨e, he, h⟩ := List.mem_filterMap.1 hx
    cases hr : e.2.readValue w with
    | error y => rw [hr] at h; cases h
    | ok y => rw [hr] at h; cases h; exact hp e he w x hr

/-- **C08.** All layers of the crate's own are proper: environment and file layers always, memory layers
when they are given a value without repeated keys (which is all the API can make, see C22). -/
theorem C08_builtin_proper (b : Build) (fm : Formats) (c : RegCall) (e : String × Layer) (hb : c.BuiltIn)
    (hm : ∀ n v, c = .memory n v → UniqueKeys v) (ho : c.offer b fm = some e) : Proper e.2 := by
  intro w v h
  cases c with
  | layer => exact hb.elim
  | memory n x => simp only [RegCall.offer, Option.some.injEq] at ho; subst ho; cases h; exact hm n _ rfl
  | environment n pre =>
    simp only [RegCall.offer, Option.some.injEq] at ho; subst ho
    exact uniqueKeys_readEnv h
  | file n path =>
    have key : ∀ cd : Codec, (Layer.file (textHandler cd) path).readValue w = .ok v → UniqueKeys v := by
      intro cd h
      simp only [Layer.readValue] at h
      split at h
      · exact uniqueKeys_textHandler h
      · cases h; exact uniqueKeys_map.2 ⟨List.nodup_nil, by simp⟩
    simp only [RegCall.offer] at ho
    split at ho
    · cases ho; exact key _ h
    · split at ho
      · cases ho; exact key _ h
      · cases ho

theorem exCalls_proper : ∀ e ∈ firsts (offers exB1 exFormats exCalls), Proper e.2 := by
  intro e he
  obtain ⟨c, hc, ho⟩ := List.mem_filterMap.1 (mem_firsts he)
  simp only [exCalls, List.mem_cons, List.not_mem_nil, or_false] at hc
  apply C08_builtin_proper exB1 exFormats c e _ _ ho
  · rcases hc with rfl | rfl | rfl | rfl | rfl | rfl <;> trivial
  · rcases hc with rfl | rfl | rfl | rfl | rfl | rfl <;> intro n v hv <;> simp at hv
    · rw [← hv.2]; simp [UniqueKeys, UniqueKeysMap, UniqueKeysEntry]
    · rw [← hv.2]; simp [UniqueKeys]

/-- **C07** at work: the file `f` is the last layer that says anything about `text` (the file `g` cannot be read, the
environment has no such key), so its text is what the build shows, over the map the layer `d` has there. -/
example (v : Value) (h : (register exB1 exFormats exCalls).buildValue exDisk true = .ok v) :
    view v [.key "text"] = some (.string "hi") := by
  refine C07_last_speaker exB1 exFormats exCalls exDisk true v h exCalls_proper [.key "text"]
    [("d", .memory (.map [("k", .string "old"), ("text", .map [("x", .none)])]))]
    ("f", .file (textHandler exCodec) (os "/a.toml"))
    [("g", .file (textHandler exCodec) (os "/b.toml")), ("e", .environment "APP_")]
    (.map [("text", .string "hi")]) (by rfl) (by rfl) rfl ?_ ?_
  · intro hs
    have := view_of_silent hs
    cases this
  · intro a ha
    simp only [List.mem_cons, List.not_mem_nil, or_false] at ha
    rcases ha with rfl | rfl
    · rintro ⟨x, hx, -⟩; cases hx
    · rintro ⟨x, hx, -, hs⟩
      have e : (Layer.environment "APP_").readValue exDisk = .ok (.map [("k", .string "w")]) := by rfl
      rw [e] at hx; cases hx
      exact hs ⟨[], "text", [], rfl, fun q hq => by rw [List.prefix_nil.1 hq]; rfl, rfl⟩

/-- **C07** at work: nobody says anything about `other`. -/
example (v : Value) (h : (register exB1 exFormats exCalls).buildValue exDisk true = .ok v) :
    view v [.key "other", .key "x"] = none := by
  refine C07_nobody_speaks exB1 exFormats exCalls exDisk true v h exCalls_proper _ ?_
  have sil : ∀ m : Entries, hmGet m "other" = none → Silent (.map m) [.key "other", .key "x"] := fun m hm =>
    ⟨[], "other", [.key "x"], rfl, fun q hq => by rw [List.prefix_nil.1 hq]; rfl, by
      rw [List.nil_append, view_key_map, hm]; rfl⟩
  intro e he
  have hl : firsts (offers exB1 exFormats exCalls) =
      [("d", .memory (.map [("k", .string "old"), ("text", .map [("x", .none)])])),
       ("f", .file (textHandler exCodec) (os "/a.toml")), ("g", .file (textHandler exCodec) (os "/b.toml")),
       ("e", .environment "APP_")] := by rfl
  rw [hl] at he
  simp only [List.mem_cons, List.not_mem_nil, or_false] at he
  rcases he with rfl | rfl | rfl | rfl
  · rintro ⟨x, hx, -, hs⟩; cases hx; exact hs (sil _ (by decide))
  · rintro ⟨x, hx, -, hs⟩
    have e : (Layer.file (textHandler exCodec) (os "/a.toml")).readValue exDisk = .ok (.map [("text", .string "hi")]) := by rfl
    rw [e] at hx; cases hx; exact hs (sil _ (by decide))
  · rintro ⟨x, hx, -⟩; cases hx
  · rintro ⟨x, hx, -, hs⟩
    have e : (Layer.environment "APP_").readValue exDisk = .ok (.map [("k", .string "w")]) := by rfl
    rw [e] at hx; cases hx; exact hs (sil _ (by decide))

/-- **C08** at work. -/
example (v : Value) (h : (register exB1 exFormats exCalls).buildValue exDisk true = .ok v) :
    v.isMap = true ∧ UniqueKeys v :=
  ⟨(C08_map exB1 exFormats exCalls exDisk true v h).1, (C08_map exB1 exFormats exCalls exDisk true v h).2 exCalls_proper⟩

/-- The example: the environment speaks last about `k`, the file about `text`; the malformed file fails. -/
example : ∃ v, (register exB1 exFormats exCalls).buildValue exDisk true = .ok v ∧
    view v [.key "k"] = some (.string "w") ∧ view v [.key "text"] = some (.string "hi") ∧
    view v [.key "text", .key "x"] = none := by
  refine ⟨.map [("k", .string "w"), ("text", .string "hi")], ?_, ?_⟩
  · rfl
  · decide

/-! ## C09 -/

/-- **C09.** `build_value(true)` succeeds, and gives what is built, with either flag, from only those of the layers
that can be read. -/
theorem C09_skip (b : Build) (fm : Formats) (calls : List RegCall) (w : World) :
    ∃ v, (register b fm calls).buildValue w true = .ok v ∧
      ∀ skip, (register b fm (((firsts (offers b fm calls)).filter
        fun e => (e.2.readValue w).toOption.isSome).map fun e => .layer e.1 e.2)).buildValue w skip = .ok v := by
  refine ⟨_, by rw [buildValue_is (is_register b fm calls), buildList_true], ?_⟩
  intro skip
  generalize hls : firsts (offers b fm calls) = ls
  have hn : (ls.map Prod.fst).Nodup := hls ▸ nodup_firsts _
  rw [buildValue_is (is_register _ _ _)]
  have hoff : ∀ ms : List (String × Layer), offers b fm (ms.map fun e => .layer e.1 e.2) = ms := by
    intro ms
    unfold offers
    induction ms with
    | nil => rfl
    | cons a ms ih => rw [List.map_cons, List.filterMap_cons]; simp only [RegCall.offer, ih]
  rw [hoff, firsts_of_nodup (hn.sublist (List.filter_sublist.map _))]
  cases skip with
  | true => rw [buildList_true, filter_firsts_readables]
  | false =>
    rw [((buildList_false w _ _).1 _).2]
    refine ⟨?_, by rw [filter_firsts_readables]⟩
    intro e he
    have := (List.mem_filter.1 he).2
    cases hr : e.2.readValue w with
    | error x => rw [hr] at this; simp [Except.toOption] at this
    | ok x => exact ⟨x, rfl⟩

/-! ## C10 -/

/-- **C10.** `build_value(false)` fails exactly with the error of the first layer, in order of registration, that
cannot be read. -/
theorem C10_first_error (b : Build) (fm : Formats) (calls : List RegCall) (w : World) (x : BakuninError) :
    (register b fm calls).buildValue w false = .error x ↔
      ∃ before e after, firsts (offers b fm calls) = before ++ e :: after ∧ e.2.readValue w = .error x ∧
        ∀ a ∈ before, ∃ y, a.2.readValue w = .ok y := by
  rw [buildValue_is (is_register b fm calls)]
  exact (buildList_false w _ _).2 x

/-- **C10.** It succeeds exactly if every layer can be read, and then with the result of `build_value(true)`. -/
theorem C10_success (b : Build) (fm : Formats) (calls : List RegCall) (w : World) (v : Value) :
    (register b fm calls).buildValue w false = .ok v ↔
      (∀ e ∈ firsts (offers b fm calls), ∃ x, e.2.readValue w = .ok x) ∧
        (register b fm calls).buildValue w true = .ok v := by
  rw [buildValue_is (is_register b fm calls), buildValue_is (is_register b fm calls), buildList_true,
    ((buildList_false w _ _).1 v)]
  constructor
  · rintro ⟨h, rfl⟩; exact ⟨h, rfl⟩
  · rintro ⟨h, h2⟩; cases h2; exact ⟨h, rfl⟩

/-! ## C11 -/

/-- **C11.** `get_layer` gives the layer that was offered first under the name; the layers are kept in the order of
first registration, each name once. -/
theorem C11_first_wins (b : Build) (fm : Formats) (calls : List RegCall) (name : String) :
    (register b fm calls).getLayer name = ((offers b fm calls).find? (fun e => e.1 == name)).map Prod.snd ∧
    (register b fm calls).names = (firsts (offers b fm calls)).map Prod.fst ∧
    (register b fm calls).names.Nodup := by
  obtain ⟨h1, h2, h3⟩ := is_register b fm calls
  refine ⟨?_, h2, h2 ▸ h3⟩
  rw [Config.getLayer, h1, find_firsts]

/-- **C11.** Registering under a name in use changes nothing. -/
theorem C11_taken (b : Build) (fm : Formats) (calls : List RegCall) (call : RegCall) (e : String × Layer)
    (ho : call.offer b fm = some e) (h : ∃ a ∈ offers b fm calls, a.1 = e.1) :
    register b fm (calls ++ [call]) = register b fm calls := by
  obtain ⟨a, ha, hae⟩ := h
  have hs : (hmGet (register b fm calls).layers e.1).isSome = true := by
    rw [(is_register b fm calls).1, find_firsts, Option.isSome_map, List.find?_isSome]
    exact ⟨a, ha, by simpa using hae⟩
  have hpush : ∀ l, (register b fm calls).pushLayer e.1 l = register b fm calls := by
    intro l; unfold Config.pushLayer; rw [if_pos hs]
  unfold register
  rw [List.foldl_append, List.foldl_cons, List.foldl_nil]
  change (call.apply b fm (register b fm calls)) = register b fm calls
  cases call with
  | layer n l => simp only [RegCall.offer, Option.some.injEq] at ho; subst ho; exact hpush _
  | memory n v => simp only [RegCall.offer, Option.some.injEq] at ho; subst ho; exact hpush _
  | environment n p => simp only [RegCall.offer, Option.some.injEq] at ho; subst ho; exact hpush _
  | file n p =>
    rw [RegCall.apply, addFileLayer_eq, ho]
    exact hpush _

/-- The name `f` is taken by a file; an environment layer of that name is not added. -/
example : register exB1 exFormats (exCalls ++ [.environment "f" "X_"]) = register exB1 exFormats exCalls :=
  C11_taken exB1 exFormats exCalls _ ("f", .environment "X_") (by rfl)
    ⟨("f", .file (textHandler exCodec) (os "/a.toml")), by
      refine List.mem_filterMap.2 ⟨.file "f" (os "/a.toml"), by simp [exCalls], by rfl⟩, rfl⟩

/-- **C11.** Only registration changes what a name stands for: after more calls, a name in use keeps its layer. -/
theorem C11_stable (b : Build) (fm : Formats) (calls more : List RegCall) (name : String) (l : Layer)
    (h : (register b fm calls).getLayer name = some l) :
    (register b fm (calls ++ more)).getLayer name = some l := by
  rw [(C11_first_wins b fm _ name).1] at h ⊢
  unfold offers at h ⊢
  rw [List.filterMap_append, List.find?_append]
  cases hf : (List.filterMap (RegCall.offer b fm) calls).find? (fun e => e.1 == name) with
  | none => rw [hf] at h; cases h
  | some e => rw [hf] at h; exact h

example : ((register exB1 exFormats exCalls).getLayer "d").isSome = true ∧
    ((register exB1 exFormats exCalls).getLayer "h").isSome = false := by decide
example : (match (register exB1 exFormats exCalls).getLayer "d" with
    | some (.memory (.string _)) => false | some (.memory (.map _)) => true | _ => false) = true := by decide

/-! ## C12 -/

/-- **C12.** `add_file_layer` with extension `toml` or `json` of an enabled feature: succeeds, and registers the file
layer of the format and of that very path, as `push_layer` would. -/
theorem C12_accepts (b : Build) (fm : Formats) (c : Config) (name : String) (path : OsStr) (fmt : Codec)
    (h : (b.toml = true ∧ pathExtension path = some (os "toml") ∧ fmt = fm.toml) ∨
      (b.json = true ∧ pathExtension path = some (os "json") ∧ fmt = fm.json)) :
    c.addFileLayer b fm name path = (.ok (), c.pushLayer name (.file (textHandler fmt) path)) := by
  rw [addFileLayer_eq]
  rcases h with ⟨h1, h2, rfl⟩ | ⟨h1, h2, rfl⟩
  · simp [RegCall.offer, h1, h2]
  · have : ¬ os "json" = os "toml" := by decide
    simp [RegCall.offer, h1, h2, this]

example (c : Config) : c.addFileLayer exB1 exFormats "f" (os "/x/y.toml") =
    (.ok (), c.pushLayer "f" (.file (textHandler exCodec) (os "/x/y.toml"))) :=
  C12_accepts exB1 exFormats c "f" (os "/x/y.toml") exCodec (Or.inl ⟨rfl, by decide, rfl⟩)

/-- **C12.** Any other path: `UnsupportedExtension` with the extension (or the empty text, if there is none or it is not
Unicode), and the configuration is unchanged. -/
theorem C12_rejects (b : Build) (fm : Formats) (c : Config) (name : String) (path : OsStr)
    (h1 : ¬ (b.toml = true ∧ pathExtension path = some (os "toml")))
    (h2 : ¬ (b.json = true ∧ pathExtension path = some (os "json"))) :
    ∃ ext, c.addFileLayer b fm name path = (.error (.configLayerError (.unsupportedExtension ext)), c) ∧
      (∀ e, pathExtension path = some (os e) → ext = e) ∧
      ((∀ e, pathExtension path ≠ some (os e)) → ext = "") := by
  rw [addFileLayer_eq]
  refine ⟨((pathExtension path).bind osToStr).getD "", ?_, ?_, ?_⟩
  · simp only [RegCall.offer, if_neg h1, if_neg h2]
  · intro e he; rw [he]; simp [osToStr_os]
  · intro hne
    cases he : pathExtension path with
    | none => rfl
    | some x =>
      cases hx : osToStr x with
      | none => simp [hx]
      | some t => exact absurd (by rw [he, osToStr_eq.1 hx]) (hne t)

/-- Both reasons: an unknown extension, and a known one whose feature is off. -/
example (c : Config) : c.addFileLayer exB1 exFormats "f" (os "/x/y.yaml") =
      (.error (.configLayerError (.unsupportedExtension "yaml")), c) ∧
    c.addFileLayer exB1 exFormats "f" (os "/x/y.json") = (.error (.configLayerError (.unsupportedExtension "json")), c) := by
  constructor
  · obtain ⟨ext, h, h1, -⟩ := C12_rejects exB1 exFormats c "f" (os "/x/y.yaml") (by decide) (by decide)
    rw [h, h1 "yaml" (by decide)]
  · obtain ⟨ext, h, h1, -⟩ := C12_rejects exB1 exFormats c "f" (os "/x/y.json") (by decide) (by decide)
    rw [h, h1 "json" (by decide)]

/-- **C12.** `with_file_layer` agrees with `add_file_layer`. -/
theorem C12_with (b : Build) (fm : Formats) (c c' : Config) (name : String) (path : OsStr) :
    (c.withFileLayer b fm name path = .ok c' ↔ c.addFileLayer b fm name path = (.ok (), c')) ∧
    (∀ x, c.withFileLayer b fm name path = .error x ↔ (c.addFileLayer b fm name path).1 = .error x) := by
  unfold Config.withFileLayer
  rcases c.addFileLayer b fm name path with ⟨_ | _, d⟩
  · simp
  · simp

example : pathExtension (os "/x/y.toml") = some (os "toml") := by decide
example : pathExtension (os "/x/y.tar.yaml") = some (os "yaml") ∧ pathExtension (os "/x/.toml") = none := by decide

/-! ## C13 -/

/-- **C13.** Worlds that agree on the prefixed variables and on the registered files give the same result. -/
theorem C13_only_inputs (b : Build) (fm : Formats) (calls : List RegCall) (w w' : World) (skip : Bool)
    (hb : ∀ c ∈ calls, c.BuiltIn) (ha : ∀ c ∈ calls, c.Agree w w') :
    (register b fm calls).buildValue w skip = (register b fm calls).buildValue w' skip := by
  rw [buildValue_is (is_register b fm calls), buildValue_is (is_register b fm calls)]
  apply buildList_congr
  intro e he
  obtain ⟨c, hc, ho⟩ := List.mem_filterMap.1 (mem_firsts he)
  exact agree_readValue (hb c hc) (ha c hc) ho

/-- Worlds that differ in an unrelated variable, an unrelated file and the directories, but agree for the example. -/
example : ∀ c ∈ exCalls, c.BuiltIn ∧ c.Agree exDisk
    { exDisk with env := [(os "APP_k", os "v"), (os " APP_APP_k ", os "w"), (os "HOME", os "/root")],
                  cwd := some (os "/"), disk := fun s => if s = 4 then .other 0 else exDisk.disk s } := by
  intro c hc
  simp only [exCalls, List.mem_cons, List.not_mem_nil, or_false] at hc
  rcases hc with rfl | rfl | rfl | rfl | rfl | rfl <;> refine ⟨trivial, ?_⟩
  · trivial
  · exact ⟨by decide, rfl⟩
  · exact ⟨by decide, rfl⟩
  · unfold RegCall.Agree; decide
  · trivial
  · exact ⟨by decide, rfl⟩

/-! ## C14 -/

/-- **C14.** One more readable layer under a new name: the built value becomes its merge with the layer's value. -/
theorem C14_add_last (b : Build) (fm : Formats) (calls : List RegCall) (call : RegCall) (w : World) (skip : Bool)
    (e : String × Layer) (x v : Value) (ho : call.offer b fm = some e)
    (hnew : ∀ a ∈ offers b fm calls, a.1 ≠ e.1) (hx : e.2.readValue w = .ok x)
    (h : (register b fm calls).buildValue w skip = .ok v) :
    (register b fm (calls ++ [call])).buildValue w skip = .ok (v.merge x) := by
  rw [buildValue_is (is_register b fm calls)] at h
  rw [buildValue_is (is_register b fm _)]
  have : offers b fm (calls ++ [call]) = offers b fm calls ++ [e] := by
    unfold offers; rw [List.filterMap_append]; simp [ho]
  rw [this, firsts_append_new, buildList_append, h]
  · simp only [Except.bind, buildList, hx]
  · intro hm
    obtain ⟨a, ha, hae⟩ := List.mem_map.1 hm
    exact hnew a ha hae

/-- A layer added last is merged on top of what the others build. -/
example : (register exB1 exFormats (exCalls ++ [.memory "top" (.map [("text", .map [("n", .none)])])])).buildValue exDisk true =
    .ok ((Value.map [("k", .string "w"), ("text", .string "hi")]).merge (.map [("text", .map [("n", .none)])])) :=
  C14_add_last exB1 exFormats exCalls _ exDisk true ("top", .memory _) _ _ (by rfl)
    (by intro a ha; have := List.mem_map_of_mem (f := Prod.fst) ha
        have e : (offers exB1 exFormats exCalls).map Prod.fst = ["d", "f", "g", "e", "d"] := by decide
        rw [e] at this; intro h; rw [h] at this; revert this; decide)
    (by rfl) (by rfl)

/-- **C14.** So a non-map that the new layer holds at a chain of keys is what is read there afterwards. -/
theorem C14_override (b : Build) (fm : Formats) (calls : List RegCall) (call : RegCall) (w : World) (skip : Bool)
    (e : String × Layer) (x v : Value) (ho : call.offer b fm = some e)
    (hnew : ∀ a ∈ offers b fm calls, a.1 ≠ e.1) (hx : e.2.readValue w = .ok x) (hp : Proper e.2)
    (h : (register b fm calls).buildValue w skip = .ok v)
    (q : List String) (hd : Head) (hq : view x (keys q) = some hd) (hne : hd ≠ .map) (hxm : x.isMap = true) :
    ∃ v', (register b fm (calls ++ [call])).buildValue w skip = .ok v' ∧ view v' (keys q) = some hd :=
  ⟨_, C14_add_last b fm calls call w skip e x v ho hnew hx h,
    C01_nonmap_replaces v x (C08_map b fm calls w skip v h).1 hxm (hp w x hx) q hd hq hne⟩

example : ∃ v', (register exB1 exFormats (exCalls ++ [.memory "top" (.map [("text", .map [("n", .none)])])])).buildValue exDisk true =
    .ok v' ∧ view v' (keys ["text", "n"]) = some .none :=
  C14_override exB1 exFormats exCalls _ exDisk true ("top", .memory _) (.map [("text", .map [("n", .none)])])
    (.map [("k", .string "w"), ("text", .string "hi")]) (by rfl)
    (by intro a ha; have := List.mem_map_of_mem (f := Prod.fst) ha
        have e : (offers exB1 exFormats exCalls).map Prod.fst = ["d", "f", "g", "e", "d"] := by decide
        rw [e] at this; intro h; rw [h] at this; revert this; decide)
    (by rfl) (fun _ v hv => by cases hv; simp [UniqueKeys, UniqueKeysMap, UniqueKeysEntry])
    (by rfl) ["text", "n"] .none (by decide) (by decide) rfl

/-- **C14.** A layer that fails, added last: skipped with `true`, the error with `false`. -/
theorem C14_failing (b : Build) (fm : Formats) (calls : List RegCall) (call : RegCall) (w : World)
    (e : String × Layer) (err : BakuninError) (v : Value) (ho : call.offer b fm = some e)
    (hnew : ∀ a ∈ offers b fm calls, a.1 ≠ e.1) (hx : e.2.readValue w = .error err) (skip : Bool)
    (h : (register b fm calls).buildValue w skip = .ok v) :
    (register b fm (calls ++ [call])).buildValue w skip = if skip then .ok v else .error err := by
  rw [buildValue_is (is_register b fm calls)] at h
  rw [buildValue_is (is_register b fm _)]
  have : offers b fm (calls ++ [call]) = offers b fm calls ++ [e] := by
    unfold offers; rw [List.filterMap_append]; simp [ho]
  rw [this, firsts_append_new, buildList_append, h]
  · cases skip <;> simp only [Except.bind, buildList, hx]
  · intro hm
    obtain ⟨a, ha, hae⟩ := List.mem_map.1 hm
    exact hnew a ha hae

/-- A broken file added last: skipped if errors are skipped. -/
example : (register exB1 exFormats (exCalls ++ [.file "top" (os "/b.toml")])).buildValue exDisk true =
    .ok (.map [("k", .string "w"), ("text", .string "hi")]) := by
  have h := C14_failing exB1 exFormats exCalls (.file "top" (os "/b.toml")) exDisk
    ("top", .file (textHandler exCodec) (os "/b.toml")) _ (.map [("k", .string "w"), ("text", .string "hi")]) (by rfl)
    (by intro a ha; have := List.mem_map_of_mem (f := Prod.fst) ha
        have e : (offers exB1 exFormats exCalls).map Prod.fst = ["d", "f", "g", "e", "d"] := by decide
        rw [e] at this; intro h; rw [h] at this; revert this; decide)
    (by rfl) true (by rfl)
  exact h

end Verif.Props
