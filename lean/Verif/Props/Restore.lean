import Verif.Spec.Restore
import Verif.Props.Reload
import Verif.Props.Toml
import Verif.Props.TomlSaving
/-!
# C129: what was read from a TOML file can be written back

Backup and restore, copies of settings files, and saving what was just loaded.
-/
namespace Verif.Props
open Verif Verif.Spec

variable {limit : Nat} {b : Build} {fm : Formats} {calls : List RegCall} {lower upper : List (String × Layer)} {name : String} {c : Codec}
  {path : OsStr} {w0 w w' : World}

theorem keyText_str {s k : String} (h : KeyText (.str s) k) : s = k := by cases h; rfl

theorem tomlDoc_at {d x : Doc} {p : Path} (h : At d p x) : TomlDoc d → TomlDoc x := by
  induction h with
  | here d => exact id
  | some _ _ => intro h; cases h
  | idx he _ ih => intro h; cases h with | seq h => exact ih (h _ (List.mem_of_getElem? he))
  | key _ _ _ ih => intro h; cases h with | map _ h => exact ih (h _ (List.mem_append_right _ (List.mem_cons_self ..)))

theorem tomlDoc_shows {x : Doc} {h : Head} (hd : TomlDoc x) (hs : Shows x h) : h ≠ .none ∧ ∀ n, numberOf h = some n → ∃ m, h = .integer m := by
  cases hd <;> cases hs
  all_goals refine ⟨nofun, fun n hn => ?_⟩
  all_goals first | exact ⟨_, rfl⟩ | cases hn | skip
  rename_i hh _ _; cases hh

theorem holds_of_heads (v : Value) : UniqueKeys v →
    (∀ p h, view v p = some h → h ≠ .none ∧ ∀ n, numberOf h = some n → ∃ m, h = .integer m) → TomlHolds v := by
  induction v using Value.ind with
  | none => intro _ h; exact absurd rfl (h [] _ rfl).1
  | boolean b => intro _ _; exact .boolean b
  | integer n => intro _ _; exact .integer n
  | longInteger n => intro _ h; obtain ⟨m, hm⟩ := (h [] _ rfl).2 _ rfl; cases hm
  | uInteger n => intro _ h; obtain ⟨m, hm⟩ := (h [] _ rfl).2 _ rfl; cases hm
  | uLongInteger n => intro _ h; obtain ⟨m, hm⟩ := (h [] _ rfl).2 _ rfl; cases hm
  | float x => intro _ _; exact .float x
  | string s => intro _ _; exact .string s
  | array xs ih =>
    intro hu h
    refine .array fun x hx => ?_
    obtain ⟨i, hi⟩ := List.getElem?_of_mem hx
    have hc : child (.array xs) (.idx i) = some x := hi
    exact ih x hx (uniqueKeys_child hu hc) fun p y hy => h (.idx i :: p) y (by rw [view_cons, hc]; exact hy)
  | map m ih =>
    intro hu h
    refine .map fun e he _ => ?_
    obtain ⟨k, x⟩ := e
    have hc : child (.map m) (.key k) = some x := by rw [child_key_map]; exact hmGet_of_mem (uniqueKeys_map.1 hu).1 he
    exact ih (k, x) he (uniqueKeys_child hu hc) fun p y hy => h (.key k :: p) y (by rw [view_cons, hc]; exact hy)

/-- **C129.** Whatever a TOML file layer reads is a map that TOML can hold, with no `None` anywhere and only one kind of integer. -/
theorem C129_values (hc : TomlReads c) (w : World) (path : OsStr) (v : Value) (hv : (Layer.newFile (textHandler c) path).readValue w = .ok v) :
    v.isMap = true ∧ TomlHolds v ∧ UniqueKeys v ∧ (∀ p, view v p ≠ some .none) ∧
    ∀ p h n, view v p = some h → numberOf h = some n → ∃ m, h = .integer m := by
  cases he : w.pathExists path with
  | false =>
    rw [C56_missing _ w path he] at hv
    cases hv
    have hn : ∀ p h, view (.map []) p = some h → h = .map := by
      intro p h hh
      cases p with
      | nil => cases hh; rfl
      | cons s p => cases s <;> cases hh
    refine ⟨rfl, .map (by simp), uniqueKeys_map.2 ⟨List.nodup_nil, by simp⟩, fun p hp => ?_, fun p h n hh hnum => ?_⟩
    · have := hn p _ hp; cases this
    · rw [hn p h hh] at hnum; cases hnum
  | true =>
    obtain ⟨text, doc, wr, -, hp, hvis⟩ := (C56_content c w path he v).1 hv
    obtain ⟨hd, es, rfl⟩ := hc text doc hp
    have hu := uniqueKeys_visit _ v hvis
    have hh : ∀ p h, view v p = some h → h ≠ .none ∧ ∀ n, numberOf h = some n → ∃ m, h = .integer m := by
      intro p h hh
      obtain ⟨x, hx, hs⟩ := (C65_content _ v hvis p h).1 hh
      exact tomlDoc_shows (tomlDoc_at hx hd) hs
    have hm : view v [] = some .map := (C65_content _ v hvis [] .map).2 ⟨_, .here _, .map _⟩
    refine ⟨?_, holds_of_heads v hu hh, hu, fun p hp => (hh p _ hp).1 rfl, fun p h n h1 h2 => (hh p h h1).2 n h2⟩
    cases v <;> cases hm
    rfl

theorem same_of_reads {v r : Value} (h : AlikeOmitting v r) (h1 : ∀ p, view v p ≠ some .none)
    (h2 : ∀ p h n, view v p = some h → numberOf h = some n → ∃ m, h = .integer m)
    (h3 : ∀ p h n, view r p = some h → numberOf h = some n → ∃ m, h = .integer m) : Same v r := by
  intro p
  rcases (h p).2 (fun hn => h1 p hn.2) with ⟨a, a'⟩ | ⟨x, y, hx, hy, ha⟩
  · rw [a, a']
  · rw [hx, hy]
    rcases ha with rfl | ⟨n, hn, hn'⟩
    · rfl
    · obtain ⟨m, rfl⟩ := h2 p x n hx hn
      obtain ⟨m', rfl⟩ := h3 p y n hy hn'
      have e : m = m' := Subtype.ext ((Option.some.inj hn).trans (Option.some.inj hn').symm)
      rw [e]

/-- **C129.** The format never refuses to write back what was read: only the operating system can. If it lets the file be opened and has room, the write succeeds. -/
theorem C129_accepted (ht : TomlLike limit c) (hc : TomlReads c) (w0 w : World) (path path' : OsStr) (v : Value)
    (hv : (Layer.newFile (textHandler c) path).readValue w0 = .ok v) :
    (∀ x w', (Layer.newFile (textHandler c) path').writeValue w v = (.error x, w') → ∃ e, x = .ioError e) ∧
    ((∃ w1, w.openTrunc path' = .ok w1) → w.room (w.locate path') = none →
      ∃ w', (Layer.newFile (textHandler c) path').writeValue w v = (.ok (), w')) := by
  obtain ⟨hm, hh, -⟩ := C129_values hc w0 path v hv
  refine ⟨fun x w' hx => ?_, fun ⟨w1, h1⟩ h2 => (C84_write ht w path' v).2 ⟨hm, hh⟩ w1 h1 h2⟩
  obtain ⟨text, hp⟩ := (ht.prints v).2 ⟨hm, hh⟩
  rcases (C57_write c w path' v _ w' hx).2 with ⟨msg, h, -⟩ | ⟨_, e, -, -, h, -⟩ | ⟨_, n, code, r, -, -, -, h, -⟩ | ⟨_, _, -, h, -⟩
  · rw [hp] at h; cases h
  · cases h; exact ⟨e, rfl⟩
  · cases h; exact ⟨_, rfl⟩
  · cases h

/-- **C129.** What was read from one file, once written to any file of the format at any later time, is read back from there exactly: the same at every path,
down to the kind of every number. -/
theorem C129_restore (ht : TomlLike limit c) (hc : TomlReads c) (w0 w w' : World) (path path' : OsStr) (v : Value)
    (hv : (Layer.newFile (textHandler c) path).readValue w0 = .ok v) (hdepth : DepthBelow v limit)
    (hok : (Layer.newFile (textHandler c) path').writeValue w v = (.ok (), w'))
    (hread : ∀ bs code wr, w.disk (w.locate path') ≠ .file bs (some code) wr) :
    ∃ r, (Layer.newFile (textHandler c) path').readValue w' = .ok r ∧ Same v r := by
  obtain ⟨-, -, hu, hn, hs⟩ := C129_values hc w0 path v hv
  obtain ⟨r, hr, ha, -⟩ := C84_read_back ht w w' path' v hu hdepth hok hread
  exact ⟨r, hr, same_of_reads ha hn hs (C129_values hc w' path' r hr).2.2.2.2⟩

/-- **C129.** Copies of copies: after any number of copies from file to file, at any times, every path still shows exactly what the original showed. -/
theorem C129_copies (ht : TomlLike limit c) (hc : TomlReads c) (w0 : World) (path : OsStr) (v r : Value)
    (hv : (Layer.newFile (textHandler c) path).readValue w0 = .ok v) (hdepth : DepthBelow v limit) (h : CopyOf c v r) : Same v r := by
  suffices h' : Same v r ∧ ∃ w path, (Layer.newFile (textHandler c) path).readValue w = .ok r from h'.1
  induction h with
  | refl => exact ⟨fun _ => rfl, w0, path, hv⟩
  | @step u r w w' path' _ hok hread hr ih =>
    obtain ⟨hs, w1, path1, hu⟩ := ih
    obtain ⟨r', hr', hs'⟩ := C129_restore ht hc w1 w w' path1 path' u hu (fun p hp => hdepth p (by rw [hs p]; exact hp)) hok hread
    have e : r = r' := by rw [hr] at hr'; exact Except.ok.inj hr'
    subst e
    exact ⟨fun p => (hs p).trans (hs' p), w', path', hr⟩

theorem says_of_same {w w' : World} {l : Layer} {x y : Value} (hx : l.readValue w = .ok x) (hy : l.readValue w' = .ok y) (hs : Same x y)
    (p : Path) (a : Option Head) (h : Says w l p a) : Says w' l p a := by
  obtain ⟨z, hz, hm, hns, hv⟩ := h
  rw [hx] at hz; cases hz
  refine ⟨y, hy, ?_, ?_, (hs p).symm.trans hv⟩
  · have := hs []
    cases x <;> cases hm
    cases y <;> first | rfl | cases this
  · rintro ⟨q, k, r, h1, h2, h3⟩
    exact hns ⟨q, k, r, h1, fun q' hq => (hs q').trans (h2 q' hq), (hs _).trans h3⟩

/-- **C129.** Restoring the settings file of a running configuration: at `w0` the program took a backup of the file through its layer; since then the file was
changed in whatever way (`w`); now the backup is written back. Building then gives exactly what it gave at the time of the backup. -/
theorem C129_rebuilt (h : Reload b fm calls lower name c path upper w0 w) (ht : TomlLike limit c) (hc : TomlReads c) (v : Value)
    (hv : (Layer.newFile (textHandler c) path).readValue w0 = .ok v) (hdepth : DepthBelow v limit)
    (hok : (Layer.newFile (textHandler c) path).writeValue w v = (.ok (), w'))
    (hread : ∀ bs code wr, w.disk (w.locate path) ≠ .file bs (some code) wr) (skip : Bool) (v0 : Value)
    (hv0 : (register b fm calls).buildValue w0 skip = .ok v0) :
    ∃ v1, (register b fm calls).buildValue w' skip = .ok v1 ∧ Same v0 v1 := by
  obtain ⟨r, hr, hs⟩ := C129_restore ht hc w0 w w' path path v hv hdepth hok hread
  obtain ⟨⟨hw, hd⟩, -⟩ := C57_write c w path v _ w' hok
  have h' : Reload b fm calls lower name c path upper w0 w' :=
    { builtIn := h.builtIn, memory := h.memory, layers := h.layers, places := h.places,
      locate := by rw [hw]; exact h.locate
      env := by rw [hw]; exact h.env
      disk := fun s hne => by rw [hd s (by rw [h.locate]; exact hne)]; exact h.disk s hne }
  have hex : ∃ v1, (register b fm calls).buildValue w' skip = .ok v1 := by
    rw [buildValue_is (is_register b fm calls)]
    cases skip with
    | true => rw [buildList_true]; exact ⟨_, rfl⟩
    | false =>
      rw [buildValue_is (is_register b fm calls)] at hv0
      have hall := (((buildList_false w0 _ _).1 v0).1 hv0).1
      refine ⟨_, ((buildList_false w' _ _).1 _).2 ⟨fun e he => ?_, rfl⟩⟩
      by_cases hf : e = (name, .file (textHandler c) path)
      · subst hf; exact ⟨r, hr⟩
      · have hlu : e ∈ lower ++ upper := by
          rw [h.layers] at he
          rcases List.mem_append.1 he with he | he
          · exact List.mem_append_left _ he
          · rcases List.mem_cons.1 he with he | he
            · exact absurd he hf
            · exact List.mem_append_right _ he
        rw [reload_others h' hlu]
        exact hall e he
  obtain ⟨v1, hv1⟩ := hex
  refine ⟨v1, hv1, fun p => ?_⟩
  exact ((C124_path h' skip v0 v1 hv0 hv1 p).2.1 fun x =>
    ⟨says_of_same hv hr hs p x, says_of_same hr hv (fun q => (hs q).symm) p x⟩).symm

/-- **C129.** And so do typed settings of every type: they can be read again if they could be then, and are the same. -/
theorem C129_settings (h : Reload b fm calls lower name c path upper w0 w) (ht : TomlLike limit c) (hc : TomlReads c) (v : Value)
    (hv : (Layer.newFile (textHandler c) path).readValue w0 = .ok v) (hdepth : DepthBelow v limit)
    (hok : (Layer.newFile (textHandler c) path).writeValue w v = (.ok (), w'))
    (hread : ∀ bs code wr, w.disk (w.locate path) ≠ .file bs (some code) wr) (skip : Bool) (v0 : Value)
    (hv0 : (register b fm calls).buildValue w0 skip = .ok v0)
    (structs : Nat → List (String × Ty)) (hws : ∀ n, WellFormed (.struct (structs n))) (T : Ty) (hT : WellFormed T) (k : Nat)
    (hclash : ¬ KeyClash structs T v0) :
    ∃ v1, (register b fm calls).buildValue w' skip = .ok v1 ∧
      ((∃ d, deAt structs k T v0 = .ok d) ↔ ∃ d, deAt structs k T v1 = .ok d) ∧
      ∀ d d', deAt structs k T v0 = .ok d → deAt structs k T v1 = .ok d' → DSame d d' := by
  obtain ⟨v1, hv1, hs⟩ := C129_rebuilt h ht hc v hv hdepth hok hread skip v0 hv0
  have hp := reload_proper h
  exact ⟨v1, hv1, C119_footprint structs hws T hT k v0 v1 ((C08_map b fm calls w0 skip v0 hv0).2 hp) ((C08_map b fm calls w' skip v1 hv1).2 hp)
    (fun p _ => hs p) hclash⟩

/-! ## A codec that writes and reads like TOML -/

/-- The document a TOML parser makes of a printed value without `None`: every integer is a 64-bit signed one. -/
def docT (v : Value) : Doc :=
  match v with
  | .none => .str ""
  | .boolean b => .bool b
  | .integer n => .int .i64 n
  | .longInteger _ => .str ""
  | .uInteger n => if h : n.1 ≤ 2 ^ 63 - 1 then .int .i64 ⟨n.1, le_trans (by decide) n.2.1, h⟩ else .str ""
  | .uLongInteger _ => .str ""
  | .float x => .f64 x
  | .string s => .str s
  | .array xs => .seq (xs.attach.map fun x => docT x.1)
  | .map m => .map (m.attach.map fun e => (.str e.1.1, docT e.1.2))
  termination_by sizeOf v
  decreasing_by
    · have := List.sizeOf_lt_of_mem x.2; simp; omega
    · have := List.sizeOf_lt_of_mem e.2
      have h2 : sizeOf e.1.2 < sizeOf e.1 := by cases e.1; simp
      simp; omega

theorem docT_array (xs : List Value) : docT (.array xs) = .seq (xs.map docT) := by
  rw [docT]; simp

theorem docT_map (m : Entries) : docT (.map m) = .map (m.map fun e => (.str e.1, docT e.2)) := by
  rw [docT]; simp [List.map_attach_eq_pmap]

theorem docT_toml (v : Value) : TomlDoc (docT v) := by
  induction v using Value.ind with
  | none => rw [docT]; exact .str _
  | boolean b => rw [docT]; exact .bool _
  | integer n => rw [docT]; exact .int _
  | longInteger n => rw [docT]; exact .str _
  | uInteger n => rw [docT]; split; exacts [.int _, .str _]
  | uLongInteger n => rw [docT]; exact .str _
  | float x => rw [docT]; exact .f64 _
  | string s => rw [docT]; exact .str _
  | array xs ih =>
    rw [docT_array]
    refine .seq fun d hd => ?_
    obtain ⟨x, hx, rfl⟩ := List.mem_map.1 hd
    exact ih x hx
  | map m ih =>
    rw [docT_map]
    refine .map (fun e he => ?_) fun e he => ?_
    all_goals obtain ⟨x, hx, rfl⟩ := List.mem_map.1 he
    · exact ⟨_, rfl⟩
    · exact ih x hx

/-- Values without `None`, 128-bit kinds and unsigned integers above `i64::MAX`. -/
inductive PlainToml : Value → Prop
  | boolean (x) : PlainToml (.boolean x)
  | float (x) : PlainToml (.float x)
  | string (s) : PlainToml (.string s)
  | integer (n) : PlainToml (.integer n)
  | uInteger {n} : n.1 ≤ 2 ^ 63 - 1 → PlainToml (.uInteger n)
  | array {xs} : (∀ x ∈ xs, PlainToml x) → PlainToml (.array xs)
  | map {m} : (∀ e ∈ m, PlainToml (Prod.snd e)) → PlainToml (.map m)

theorem plain_pruneBy (v : Value) : ∀ f : Path → Bool, (∀ p, f p = true) → TomlHolds v → PlainToml (pruneBy f v) := by
  induction v using Value.ind with
  | none => intro f _ h; cases h
  | boolean b => intro f _ _; rw [pruneBy]; exact .boolean b
  | integer n => intro f _ _; rw [pruneBy]; exact .integer n
  | longInteger n => intro f _ h; cases h
  | uInteger n => intro f _ h; rw [pruneBy]; cases h with | uInteger h => exact .uInteger h
  | uLongInteger n => intro f _ h; cases h
  | float x => intro f _ _; rw [pruneBy]; exact .float x
  | string s => intro f _ _; rw [pruneBy]; exact .string s
  | array xs ih =>
    intro f hf h
    rw [pruneBy]
    cases h with
    | array h =>
      refine .array fun y hy => ?_
      obtain ⟨j, hj⟩ := List.getElem?_of_mem hy
      rw [pruneList_get] at hj
      obtain ⟨x, hx, rfl⟩ := Option.map_eq_some_iff.1 hj
      exact ih x (List.mem_of_getElem? hx) _ (fun p => hf _) (h x (List.mem_of_getElem? hx))
  | map m ih =>
    intro f hf h
    rw [pruneBy]
    cases h with
    | map h =>
      refine .map fun e he => ?_
      rw [pruneMap_eq] at he
      obtain ⟨x, hx, rfl⟩ := List.mem_map.1 he
      obtain ⟨hx, hk⟩ := List.mem_filter.1 hx
      have hn : x.2 ≠ .none := fun e0 => by rw [e0, hf] at hk; cases hk
      exact ih x hx _ (fun p => hf _) (h x hx hn)

theorem presents_docT {v : Value} (h : PlainToml v) : Presents v (docT v) := by
  induction h with
  | boolean b => rw [docT]; exact .bool b
  | float x => rw [docT]; exact .f64 x
  | string s => rw [docT]; exact .str s
  | integer n => rw [docT]; exact .int rfl rfl
  | uInteger h => rw [docT, dif_pos h]; exact .int rfl rfl
  | @array xs _ ih =>
    rw [docT_array]
    refine .array (by simp) fun i x d hx hd => ?_
    rw [List.getElem?_map, hx] at hd
    cases hd
    exact ih x (List.mem_of_getElem? hx)
  | @map m _ ih =>
    rw [docT_map]
    refine .map m (List.Perm.refl _) (by simp) (fun i k x k' d hx hd => ?_) (fun i k x k' d hx hd => ?_)
    all_goals
      rw [List.getElem?_map, hx] at hd
      cases hd
    · exact .str _
    · exact ih (k, x) (List.mem_of_getElem? hx)

open Classical in
/-- It writes down the maps TOML can hold, and reads exactly the texts of such maps. -/
noncomputable def exTomlS : Codec where
  print := exToml.print
  parse text := if h : ∃ v : Value, exists_text.choose v = text ∧ v.isMap = true ∧ TomlHolds v then .ok (docT (prune h.choose)) else .error "syntax error"

open Classical in
theorem exTomlS_parse {v : Value} (h1 : v.isMap = true) (h2 : TomlHolds v) : exTomlS.parse (exists_text.choose v) = .ok (docT (prune v)) := by
  have h : ∃ u : Value, exists_text.choose u = exists_text.choose v ∧ u.isMap = true ∧ TomlHolds u := ⟨v, rfl, h1, h2⟩
  show (if h : _ then _ else _) = _
  rw [dif_pos h, exists_text.choose_spec h.choose_spec.1]

open Classical in
/-- Such codecs exist, for every limit. -/
theorem exTomlS_like (limit : Nat) : TomlLike limit exTomlS where
  prints := (exToml_like limit).prints
  parses v text hu hd hp := by
    have hv := ((exToml_like limit).prints v).1 ⟨text, hp⟩
    have hp' : exToml.print v.toData = .ok text := hp
    rw [exToml_print hv.1 hv.2] at hp'
    cases hp'
    exact ⟨_, prune v, exTomlS_parse hv.1 hv.2, presents_docT (plain_pruneBy v _ (fun _ => rfl) hv.2), omitting_prune' hu, uniqueKeys_prune v hu⟩

open Classical in
theorem exTomlS_reads : TomlReads exTomlS := by
  intro text doc h
  have h' : (if h : ∃ v : Value, exists_text.choose v = text ∧ v.isMap = true ∧ TomlHolds v then .ok (docT (prune h.choose)) else .error "syntax error") =
    Except.ok doc := h
  split at h'
  · rename_i hv
    cases h'
    refine ⟨docT_toml _, ?_⟩
    have hm := hv.choose_spec.2.1
    generalize hv.choose = v at hm
    cases v <;> cases hm
    rw [prune, pruneBy, docT_map]
    exact ⟨_, rfl⟩
  · cases h'

/-! ### A concrete case: a file with a port and tags is backed up, damaged, restored -/

/-- What a program once wrote, and what is read: the port comes back as a signed integer. -/
def exRSaved : Value := .map [("port", .uInteger ⟨80, by decide⟩), ("tags", .array [.string "a"])]
def exRRead : Value := .map [("port", .integer ⟨80, by decide⟩), ("tags", .array [.string "a"])]
noncomputable def exRDisk : World := exDisk.put 3 (.file (utf8 (exists_text.choose exRSaved)) none none)

theorem exRSaved_holds : TomlHolds exRSaved := by
  refine .map ?_
  intro e he
  simp only [List.mem_cons, List.not_mem_nil, or_false] at he
  rcases he with rfl | rfl
  · intro _; exact .uInteger (by decide)
  · intro _; refine .array ?_; intro x hx; simp only [List.mem_singleton] at hx; subst hx; exact .string _

theorem exR_read : (Layer.newFile (textHandler exTomlS) (os "/c.toml")).readValue exRDisk = .ok exRRead := by
  refine (C56_content exTomlS exRDisk (os "/c.toml") rfl exRRead).2 ⟨_, _, none, rfl, exTomlS_parse rfl exRSaved_holds, ?_⟩
  have : prune exRSaved = exRSaved := rfl
  rw [this, exRSaved, docT_map]
  simp only [List.map_cons, List.map_nil, docT_array]
  rw [docT, docT, dif_pos (by decide)]
  rfl

theorem exRRead_depth : DepthBelow exRRead 80 := by
  refine depth_mono (k := 3) (depth_node fun s x hx => ?_) (by decide)
  cases s with
  | idx i => cases hx
  | key k =>
    rw [exRRead, child_key_map] at hx
    have := hmGet_mem hx
    simp only [List.mem_cons, List.not_mem_nil, or_false, Prod.mk.injEq] at this
    rcases this with ⟨-, rfl⟩ | ⟨-, rfl⟩
    · exact depth_mono (depth_leaf (by rintro (_ | _) <;> rfl)) (by decide)
    · refine depth_node fun s x hx => ?_
      cases s with
      | key k => cases hx
      | idx i =>
        have := List.mem_of_getElem? (show [Value.string "a"][i]? = some x from hx)
        simp only [List.mem_singleton] at this
        subst this
        exact depth_leaf (by rintro (_ | _) <;> rfl)

/-- Defaults, the file, the environment. -/
def exRCalls : List RegCall := [.memory "d" (.map [("port", .string "none"), ("n", .boolean true)]), .file "f" (os "/c.toml"), .environment "e" "APP_"]

theorem exR_reload (n : Node) : Reload exB1 ⟨exTomlS, exTomlS⟩ exRCalls [("d", .memory (.map [("port", .string "none"), ("n", .boolean true)]))] "f" exTomlS
    (os "/c.toml") [("e", .environment "APP_")] exRDisk (exRDisk.put 3 n) where
  builtIn := by
    intro c hc
    simp only [exRCalls, List.mem_cons, List.not_mem_nil, or_false] at hc
    rcases hc with rfl | rfl | rfl <;> trivial
  memory := by
    intro n x hx
    simp only [exRCalls, List.mem_cons, List.not_mem_nil, or_false] at hx
    rcases hx with h | h | h
    · cases h; simp [UniqueKeys, UniqueKeysMap, UniqueKeysEntry]
    · cases h
    · cases h
  layers := by rfl
  places := by
    intro e he h q hq
    simp only [List.cons_append, List.nil_append, List.mem_cons, List.not_mem_nil, or_false] at he
    rcases he with rfl | rfl <;> cases hq
  locate := rfl
  env := rfl
  disk := fun s hs => if_neg hs

/-- What is read is a value of the kind described. -/
example : exRRead.isMap = true ∧ TomlHolds exRRead ∧ ∀ p, view exRRead p ≠ some .none :=
  let h := C129_values exTomlS_reads _ _ _ exR_read
  ⟨h.1, h.2.1, h.2.2.2.1⟩

/-- The file is emptied by someone; the backup is written back; the configuration builds what it built before. (While the file was empty it did not.) -/
example : ∃ w' v0 v1, (Layer.newFile (textHandler exTomlS) (os "/c.toml")).writeValue (exRDisk.put 3 (.file [] none none)) exRRead = (.ok (), w') ∧
    (register exB1 ⟨exTomlS, exTomlS⟩ exRCalls).buildValue exRDisk false = .ok v0 ∧
    (register exB1 ⟨exTomlS, exTomlS⟩ exRCalls).buildValue w' false = .ok v1 ∧ Same v0 v1 ∧
    view v1 [.key "port"] = some (.integer ⟨80, by decide⟩) ∧ view v1 [.key "n"] = some (.boolean true) := by
  obtain ⟨w', hok⟩ := (C129_accepted (exTomlS_like 80) exTomlS_reads exRDisk (exRDisk.put 3 (.file [] none none)) (os "/c.toml") (os "/c.toml") exRRead
    exR_read).2 ⟨_, rfl⟩ rfl
  have hb : ∃ v0, (register exB1 ⟨exTomlS, exTomlS⟩ exRCalls).buildValue exRDisk false = .ok v0 ∧
      view v0 [.key "port"] = some (.integer ⟨80, by decide⟩) ∧ view v0 [.key "n"] = some (.boolean true) := by
    rw [buildValue_is (is_register _ _ _)]
    show ∃ v0, buildList exRDisk false Value.newMap [("d", .memory (.map [("port", .string "none"), ("n", .boolean true)])),
      ("f", .newFile (textHandler exTomlS) (os "/c.toml")), ("e", .environment "APP_")] = .ok v0 ∧ _
    simp only [buildList, exR_read]
    exact ⟨_, rfl, rfl, rfl⟩
  obtain ⟨v0, hv0, hp, hn⟩ := hb
  obtain ⟨v1, hv1, hs⟩ := C129_rebuilt (exR_reload _) (exTomlS_like 80) exTomlS_reads exRRead exR_read exRRead_depth hok
    (by intro bs code wr h; cases h) false v0 hv0
  exact ⟨w', v0, v1, hok, hv0, hv1, hs, (hs _).symm.trans hp, (hs _).symm.trans hn⟩

/-- Two copies: to another file, and from there back. -/
example : ∃ w1 w2 r1 r2, (Layer.newFile (textHandler exTomlS) (os "/b.toml")).writeValue exRDisk exRRead = (.ok (), w1) ∧
    (Layer.newFile (textHandler exTomlS) (os "/b.toml")).readValue w1 = .ok r1 ∧
    (Layer.newFile (textHandler exTomlS) (os "/c.toml")).writeValue exRDisk r1 = (.ok (), w2) ∧
    (Layer.newFile (textHandler exTomlS) (os "/c.toml")).readValue w2 = .ok r2 ∧ Same exRRead r2 := by
  have hl := exTomlS_like 80
  have hc := exTomlS_reads
  obtain ⟨w1, hok1⟩ := (C129_accepted hl hc exRDisk exRDisk (os "/c.toml") (os "/b.toml") exRRead exR_read).2 ⟨_, rfl⟩ rfl
  obtain ⟨r1, hr1, hs1⟩ := C129_restore hl hc exRDisk exRDisk w1 (os "/c.toml") (os "/b.toml") exRRead exR_read exRRead_depth hok1
    (by intro bs code wr h; cases h)
  obtain ⟨w2, hok2⟩ := (C129_accepted hl hc w1 exRDisk (os "/b.toml") (os "/c.toml") r1 hr1).2 ⟨_, rfl⟩ rfl
  obtain ⟨r2, hr2, -⟩ := C129_restore hl hc w1 exRDisk w2 (os "/b.toml") (os "/c.toml") r1 hr1
    (fun p hp => exRRead_depth p (by rw [hs1 p]; exact hp)) hok2 (by intro bs code wr h; cases h)
  refine ⟨w1, w2, r1, r2, hok1, hr1, hok2, hr2, C129_copies hl hc exRDisk (os "/c.toml") exRRead r2 exR_read exRRead_depth ?_⟩
  exact .step (.step .refl hok1 (by intro bs code wr h; cases h) hr1) hok2 (by intro bs code wr h; cases h) hr2

/-- A program reads its settings `{ port: u16 }`: after the restoration they are what they were. -/
example : ∃ w' v0 v1, (Layer.newFile (textHandler exTomlS) (os "/c.toml")).writeValue (exRDisk.put 3 (.absent none)) exRRead = (.ok (), w') ∧
    (register exB1 ⟨exTomlS, exTomlS⟩ exRCalls).buildValue exRDisk false = .ok v0 ∧
    (register exB1 ⟨exTomlS, exTomlS⟩ exRCalls).buildValue w' false = .ok v1 ∧
    deAt (fun _ => []) 1 (.struct [("port", .int .u16)]) v0 = .ok (.struct [("port", .int .u16 ⟨80, by decide⟩)]) ∧
    ∃ d, deAt (fun _ => []) 1 (.struct [("port", .int .u16)]) v1 = .ok d ∧ DSame (.struct [("port", .int .u16 ⟨80, by decide⟩)]) d := by
  obtain ⟨w', hok⟩ := (C129_accepted (exTomlS_like 80) exTomlS_reads exRDisk (exRDisk.put 3 (.absent none)) (os "/c.toml") (os "/c.toml") exRRead
    exR_read).2 ⟨_, rfl⟩ rfl
  have hb : ∃ v0, (register exB1 ⟨exTomlS, exTomlS⟩ exRCalls).buildValue exRDisk false = .ok v0 ∧
      deAt (fun _ => []) 1 (.struct [("port", .int .u16)]) v0 = .ok (.struct [("port", .int .u16 ⟨80, by decide⟩)]) := by
    rw [buildValue_is (is_register _ _ _)]
    show ∃ v0, buildList exRDisk false Value.newMap [("d", .memory (.map [("port", .string "none"), ("n", .boolean true)])),
      ("f", .newFile (textHandler exTomlS) (os "/c.toml")), ("e", .environment "APP_")] = .ok v0 ∧ _
    simp only [buildList, exR_read]
    exact ⟨_, rfl, rfl⟩
  obtain ⟨v0, hv0, hd⟩ := hb
  obtain ⟨v1, hv1, he, hsame⟩ := C129_settings (exR_reload _) (exTomlS_like 80) exTomlS_reads exRRead exR_read exRRead_depth hok
    (by intro bs code wr h; cases h) false v0 hv0 (fun _ => []) (fun _ => .struct (by simp) (by simp)) (.struct [("port", .int .u16)])
    (.struct (by simp) (by
      intro f hf
      simp only [List.mem_singleton] at hf
      subst hf
      exact .int _)) 1 (by
      intro hk
      cases hk with
      | struct hm _ hk =>
        simp only [List.mem_singleton, Prod.mk.injEq] at hm
        obtain ⟨-, rfl⟩ := hm
        cases hk)
  obtain ⟨d, hd1⟩ := he.1 ⟨_, hd⟩
  exact ⟨w', v0, v1, hok, hv0, hv1, hd, d, hd1, hsame _ _ hd hd1⟩

end Verif.Props
