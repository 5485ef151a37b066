import Verif.Props.Evolution
import Verif.Props.Maps
import Verif.Props.Editing
import Verif.Props.Program
/-!
# C118: settings that were read can be saved and read again
-/
namespace Verif.Props
open Spec

theorem denotes_type {kt : KeyTy} {s : String} {k : Key} (h : Denotes kt s k) : KeyHasType kt k := by
  cases kt with
  | bool =>
    rcases h with ⟨rfl, -⟩ | ⟨rfl, -⟩
    · exact ⟨_, rfl⟩
    · exact ⟨_, rfl⟩
  | int t => obtain ⟨-, n, rfl, -⟩ := h; exact ⟨_, rfl⟩
  | char => obtain ⟨c, rfl, -⟩ := h; exact ⟨_, rfl⟩
  | string => exact ⟨_, h⟩

theorem hasType_de {structs : Nat → List (String × Ty)} {refs : Nat → Decoder}
    (hrefs : ∀ n v d, UniqueKeys v → refs n v = .ok d → HasType structs (.struct (structs n)) d) (t : Ty) :
    WellFormed t → ∀ v d, UniqueKeys v → de refs t v = .ok d → HasType structs t d := by
  have tup : ∀ {ts : List Ty}, (∀ t ∈ ts, ∀ v d, UniqueKeys v → de refs t v = .ok d → HasType structs t d) → ∀ {xs : List Value} {ds : List Data},
      UniqueKeys (.array xs) → ts.length ≤ xs.length →
      (∀ (i : Nat) t x y, ts[i]? = some t → xs[i]? = some x → ds[i]? = some y → de refs t x = .ok y) →
      ∀ (i : Nat) t d, ts[i]? = Option.some t → ds[i]? = Option.some d → HasType structs t d := by
    intro ts ih xs ds hu hl h i t d ht hd
    obtain ⟨x, hx⟩ := get_of_lt (show i < xs.length by have := lt_of_get ht; omega)
    exact ih t (List.mem_of_getElem? ht) x d (uniqueKeys_array.1 hu x (List.mem_of_getElem? hx)) (h i t x d ht hx hd)
  induction t using Ty.ind with
  | bool => intro _ v d _ h; rw [de] at h; obtain ⟨x, -, h⟩ := bind_eq_ok.1 h; cases h; exact .bool x
  | int t => intro _ v d _ h; rw [de] at h; obtain ⟨x, -, h⟩ := bind_eq_ok.1 h; cases h; exact .int t x
  | f32 => intro _ v d _ h; rw [de] at h; obtain ⟨x, -, h⟩ := bind_eq_ok.1 h; cases h; exact .f32 _
  | f64 => intro _ v d _ h; rw [de] at h; obtain ⟨x, -, h⟩ := bind_eq_ok.1 h; cases h; exact .f64 x
  | char => intro _ v d _ h; rw [de] at h; obtain ⟨x, -, h⟩ := bind_eq_ok.1 h; cases h; exact .char x
  | string => intro _ v d _ h; rw [de] at h; obtain ⟨x, -, h⟩ := bind_eq_ok.1 h; cases h; exact .string x
  | unit => intro _ v d _ h; cases v <;> simp only [de, reduceCtorEq, Outcome.ok.injEq] at h; rw [← h]; exact .unit
  | unitStruct => intro _ v d _ h; cases v <;> simp only [de, reduceCtorEq, Outcome.ok.injEq] at h; rw [← h]; exact .unitStruct
  | value =>
    intro _ v d hu h
    rw [de, deValue_ok v hu] at h
    cases h
    exact .value v hu
  | bytes | enum => intro _ v d _ h; rw [de] at h; cases h
  | option t ih =>
    intro hw v d hu h
    cases hw with
    | option hw =>
    by_cases hv : v = .none
    · subst hv
      simp only [de, Outcome.ok.injEq] at h
      rw [← h]; exact .none t
    · rw [de] at h
      · obtain ⟨x, hx, h⟩ := bind_eq_ok.1 h
        cases h
        exact .some (ih hw v x hu hx)
      · exact fun e => absurd e hv
  | newtype t ih =>
    intro hw v d hu h
    cases hw with
    | newtype hw =>
    rw [de] at h
    obtain ⟨x, hx, h⟩ := bind_eq_ok.1 h
    cases h
    exact .newtype (ih hw v x hu hx)
  | seq t ih =>
    intro hw v d hu h
    cases hw with
    | seq hw =>
    have : ∃ xs, v = .array xs := by cases v <;> simp only [de, reduceCtorEq] at h; exact ⟨_, rfl⟩
    obtain ⟨xs, rfl⟩ := this
    obtain ⟨ds, rfl, l1, h1⟩ := (de_seq_ok _ _ _ _).1 h
    refine .seq fun d hd => ?_
    obtain ⟨i, hi⟩ := List.mem_iff_getElem?.1 hd
    obtain ⟨x, hx⟩ := get_of_lt (show i < xs.length by have := lt_of_get hi; omega)
    exact ih hw x d (uniqueKeys_array.1 hu x (List.mem_of_getElem? hx)) (h1 i x d hx hi)
  | tuple ts ih =>
    intro hw v d hu h
    cases hw with
    | tuple hw =>
    have : ∃ xs, v = .array xs := by cases v <;> simp only [de, reduceCtorEq] at h; exact ⟨_, rfl⟩
    obtain ⟨xs, rfl⟩ := this
    obtain ⟨ds, rfl, l1, l2, h1⟩ := (de_tuple_ok _ _ _ _).1 h
    exact .tuple l2 (tup (fun t ht => ih t ht (hw t ht)) hu l1 h1)
  | tupleStruct ts ih =>
    intro hw v d hu h
    cases hw with
    | tupleStruct hw =>
    have : ∃ xs, v = .array xs := by cases v <;> simp only [de, reduceCtorEq] at h; exact ⟨_, rfl⟩
    obtain ⟨xs, rfl⟩ := this
    obtain ⟨ds, rfl, l1, l2, h1⟩ := (de_tupleStruct_ok _ _ _ _).1 h
    exact .tupleStruct l2 (tup (fun t ht => ih t ht (hw t ht)) hu l1 h1)
  | map kt t ih =>
    intro hw v d hu h
    cases hw with
    | map hw =>
    have : ∃ m, v = .map m := by cases v <;> simp only [de, reduceCtorEq] at h; exact ⟨_, rfl⟩
    obtain ⟨m, rfl⟩ := this
    rw [de] at h
    obtain ⟨es, hes, h⟩ := bind_eq_ok.1 h
    cases h
    obtain ⟨h1, h2, h3⟩ := mapLoop_get m [] es (by simp) hes
    refine .map (fun e he => ?_) h1 fun e he => ?_
    · rcases h2 e.1 (List.mem_map_of_mem he) with h | ⟨x, -, h⟩
      · simp at h
      · exact denotes_type h
    · rcases (h3 e.1 e.2).1 (keyGet_of_mem h1 he) with ⟨before, s, y, after, rfl, -, hy, -⟩ | ⟨-, h⟩
      · exact ih hw y e.2 ((uniqueKeys_map.1 hu).2 (s, y) (by simp)) hy
      · cases h
  | struct fs ih =>
    intro hw v d hu h
    cases hw with
    | struct hn hw =>
    obtain ⟨m, rfl⟩ := struct_map h
    have hum := uniqueKeys_map.1 hu
    obtain ⟨ds, rfl, h1⟩ := (de_struct_ok _ _ hn _ hum.1 _).1 h
    obtain ⟨l1, h2⟩ := forall2_index h1
    refine .struct (fields_of h1).1 fun i f d hf hd => ?_
    have h3 := (h2 i f d hf hd).2
    cases hg : hmGet m f.1 with
    | none =>
      rw [hg] at h3
      obtain ⟨e, u, e2⟩ := missing_cases h3
      rw [e, e2]; exact .none u
    | some x =>
      rw [hg] at h3
      exact ih f (List.mem_of_getElem? hf) (hw f (List.mem_of_getElem? hf)) x d.2 (hum.2 _ (hmGet_mem hg)) h3
  | ref n => intro _ v d hu h; rw [de] at h; exact .ref (hrefs n v d hu h)

/-- Typed data without a `Value` inside can be serialized. -/
theorem serializable_concrete {structs : Nat → List (String × Ty)} (hs : ∀ n, Survives (.struct (structs n))) (hsc : ∀ n, Concrete (.struct (structs n)))
    {t : Ty} {d : Data} (ht : HasType structs t d) : Survives t → Concrete t → Serializable d := by
  induction ht with
  | bool b => intro _ _; exact .bool b
  | int t n => intro h _; cases h with | int h => exact .int n h
  | f32 x => intro _ _; exact .f32 x
  | f64 x => intro _ _; exact .f64 x
  | char x => intro _ _; exact .char x
  | string x => intro _ _; exact .str x
  | unit => intro _ _; exact .unit
  | unitStruct => intro _ _; exact .unitStruct
  | bytes bs => intro _ _; exact .bytes bs
  | value v hv => intro _ h; cases h with | leaf h => simp at h
  | none t => intro _ _; exact .none
  | some _ ih =>
    intro h h1
    cases h with
    | option h _ =>
      cases h1 with
      | leaf h1 => simp at h1
      | option h1 => exact .some (ih h h1)
  | newtype _ ih =>
    intro h h1
    cases h with
    | newtype h =>
      cases h1 with
      | leaf h1 => simp at h1
      | newtype h1 => exact .newtypeStruct (ih h h1)
  | seq _ ih =>
    intro h h1
    cases h with
    | seq h =>
      cases h1 with
      | leaf h1 => simp at h1
      | seq h1 => exact .seq fun d hd => ih d hd h h1
  | tuple hl _ ih =>
    intro h h1
    cases h with
    | tuple h =>
      cases h1 with
      | leaf h1 => simp at h1
      | tuple h1 =>
        refine .tuple fun d hd => ?_
        obtain ⟨i, hi⟩ := List.mem_iff_getElem?.1 hd
        obtain ⟨t, ht⟩ := get_of_lt (show i < _ by rw [← hl]; exact lt_of_get hi)
        exact ih i t d ht hi (h t (List.mem_of_getElem? ht)) (h1 t (List.mem_of_getElem? ht))
  | tupleStruct hl _ ih =>
    intro h h1
    cases h with
    | tupleStruct h =>
      cases h1 with
      | leaf h1 => simp at h1
      | tupleStruct h1 =>
        refine .tupleStruct fun d hd => ?_
        obtain ⟨i, hi⟩ := List.mem_iff_getElem?.1 hd
        obtain ⟨t, ht⟩ := get_of_lt (show i < _ by rw [← hl]; exact lt_of_get hi)
        exact ih i t d ht hi (h t (List.mem_of_getElem? ht)) (h1 t (List.mem_of_getElem? ht))
  | @map kt t es hk hn _ ih =>
    intro h h1
    cases h with
    | map hg h =>
      cases h1 with
      | leaf h1 => simp at h1
      | map h1 =>
        refine .map (fun e he => ?_) (fun e he => ?_) (fun e he => ?_) <;> obtain ⟨e, he', rfl⟩ := List.mem_map.1 he
        · cases hk' : e.1 <;> constructor
        · rw [← ser_ok_iff]
          obtain ⟨kx, h2, _⟩ := ser_keyText hg (hk e he')
          exact ⟨kx, h2⟩
        · exact ih e he' h h1
  | @struct fs ds hl _ ih =>
    intro h h1
    cases h with
    | struct hn h =>
      cases h1 with
      | leaf h1 => simp at h1
      | struct h1 =>
        refine .struct fun d hd => ?_
        obtain ⟨i, hi⟩ := List.mem_iff_getElem?.1 hd
        have l0 : ds.length = fs.length := by simpa using congrArg List.length hl
        obtain ⟨f, hf⟩ := get_of_lt (show i < fs.length by rw [← l0]; exact lt_of_get hi)
        exact ih i f d hf hi (h f (List.mem_of_getElem? hf)) (h1 f (List.mem_of_getElem? hf))
  | ref _ ih => intro _ _; exact ih (hs _) (hsc _)

/-! ## C118 -/

/-- **C118.** What is read as a type is of that type: every field is there once, in place, with a value of its type. -/
theorem C118_typed (structs : Nat → List (String × Ty)) (hs : ∀ n, WellFormed (.struct (structs n))) (T : Ty) (hT : WellFormed T) (k : Nat) (v : Value)
    (hu : UniqueKeys v) (d : Data) (hd : deAt structs k T v = .ok d) : HasType structs T d := by
  have refs : ∀ k n v d, UniqueKeys v → refsAt structs k n v = .ok d → HasType structs (.struct (structs n)) d := by
    intro k
    induction k with
    | zero => intro n v d _ h; cases h
    | succ k ih => intro n v d hu h; exact hasType_de ih _ (hs n) v d hu h
  exact hasType_de (refs k) T hT v d hu hd

/-- **C118.** Settings that were read (of a type without `Value` inside) can be serialized again, and reading the result — in whatever order the hash
maps hold it — gives the same settings. The result has no keys but those of the type. -/
theorem C118_reread (structs : Nat → List (String × Ty)) (hs : ∀ n, Survives (.struct (structs n))) (hsc : ∀ n, Concrete (.struct (structs n)))
    (T : Ty) (hT : Survives T) (hTc : Concrete T) (k : Nat) (v : Value) (hu : UniqueKeys v) (d : Data) (hd : deAt structs k T v = .ok d) :
    ∃ v', ser d = .ok v' ∧ UniqueKeys v' ∧ OnlyKnown structs T v' ∧ ∀ v'', Same v' v'' → UniqueKeys v'' →
      ∃ k0, ∀ j, k0 ≤ j → ∃ d', deAt structs j T v'' = .ok d' ∧ DSame d d' := by
  have ht := C118_typed structs (fun n => wellFormed_of_survives (hs n)) T (wellFormed_of_survives hT) k v hu d hd
  obtain ⟨v', hv'⟩ := (ser_ok_iff d).2 (serializable_concrete hs hsc ht hT hTc)
  exact ⟨v', hv', uniqueKeys_ser d v' hv', onlyKnown_ser hs ht hT v' hv', back hs ht hT v' hv'⟩

/-- **C118.** A program reads its settings from a TOML file and saves them there again: it reads the same settings afterwards, and every key of the
file that its type does not know is gone. -/
theorem C118_resave {limit : Nat} {cd : Codec} (htl : TomlLike limit cd) (structs : Nat → List (String × Ty))
    (hs : ∀ n, Survives (.struct (structs n))) (hsc : ∀ n, Concrete (.struct (structs n))) (hso : ∀ n, OmitsNone (.struct (structs n)))
    (T : Ty) (hT : Survives T) (hTc : Concrete T) (hTo : OmitsNone T) (w w' : World) (path : OsStr) (v : Value)
    (hr : (Layer.newFile (textHandler cd) path).readValue w = .ok v) (k : Nat) (d : Data) (hd : deAt structs k T v = .ok d)
    (v' : Value) (hv' : ser d = .ok v') (hdepth : DepthBelow v' limit)
    (hok : (Layer.newFile (textHandler cd) path).writeValue w v' = (.ok (), w'))
    (hread : ∀ bs code wr, w.disk (w.locate path) ≠ .file bs (some code) wr) :
    ∃ r, (Layer.newFile (textHandler cd) path).readValue w' = .ok r ∧ OnlyKnown structs T r ∧
      ∃ k0, ∀ j, k0 ≤ j → ∃ d', deAt structs j T r = .ok d' ∧ DSame d d' := by
  have ht := C118_typed structs (fun n => wellFormed_of_survives (hs n)) T (wellFormed_of_survives hT) k v (proper_builtin_file path cd w v hr) d hd
  obtain ⟨r, h1, k0, h2⟩ := C84_typed htl structs hs hsc hso T hT hTc hTo d ht v' hv' hdepth w w' path hok hread
  obtain ⟨-, s, r', h3, hom, -, hal, -⟩ := toml_stored htl (uniqueKeys_ser d v' hv') hdepth hok hread
  rw [h1] at h3
  cases h3
  exact ⟨r, h1, onlyKnown_fewer (onlyKnown_ser hs ht hT v' hv') r (fewer_of_alikeOmitting (alikeOmitting_of hom hal)), k0, h2⟩

/-- **C118.** A setting that the saving program's type does not have is forgotten: a program (another version, or another program on the same file)
whose type has it as an optional field reads the file afterwards with nothing there. -/
theorem C118_forgotten {limit : Nat} {cd : Codec} (htl : TomlLike limit cd) (structs structs' : Nat → List (String × Ty))
    (hs : ∀ n, Survives (.struct (structs n))) (hsc : ∀ n, Concrete (.struct (structs n))) (hso : ∀ n, OmitsNone (.struct (structs n)))
    (fs fs' : List (String × Ty)) (hT : Survives (.struct fs)) (hTc : Concrete (.struct fs)) (hTo : OmitsNone (.struct fs)) (hT' : (fs'.map Prod.fst).Nodup)
    (name : String) (t : Ty) (hmem : (name, .option t) ∈ fs') (hno : name ∉ fs.map Prod.fst) (w w' : World) (path : OsStr) (v : Value)
    (hr : (Layer.newFile (textHandler cd) path).readValue w = .ok v) (k : Nat) (d : Data) (hd : deAt structs k (.struct fs) v = .ok d)
    (v' : Value) (hv' : ser d = .ok v') (hdepth : DepthBelow v' limit)
    (hok : (Layer.newFile (textHandler cd) path).writeValue w v' = (.ok (), w'))
    (hread : ∀ bs code wr, w.disk (w.locate path) ≠ .file bs (some code) wr) :
    ∃ r, (Layer.newFile (textHandler cd) path).readValue w' = .ok r ∧ child r (.key name) = none ∧
      ∀ j d', deAt structs' j (.struct fs') r = .ok d' → ∃ ds, d' = .struct ds ∧ (name, .none) ∈ ds ∧ ∀ x, (name, x) ∈ ds → x = .none := by
  have ht := C118_typed structs (fun n => wellFormed_of_survives (hs n)) _ (wellFormed_of_survives hT) k v (proper_builtin_file path cd w v hr) d hd
  obtain ⟨-, s, r, h3, hom, -, hal, hur⟩ := toml_stored htl (uniqueKeys_ser d v' hv') hdepth hok hread
  have hk := onlyKnown_fewer (onlyKnown_ser hs ht hT v' hv') r (fewer_of_alikeOmitting (alikeOmitting_of hom hal))
  have hc : child r (.key name) = none := by
    cases hc : child r (.key name) with
    | none => rfl
    | some x =>
      cases hk with
      | leaf h => simp at h
      | struct h _ => exact absurd (h name x hc) hno
  refine ⟨r, h3, hc, fun j d' hd' => ?_⟩
  obtain ⟨m, rfl⟩ := struct_map hd'
  rw [child_key_map] at hc
  obtain ⟨ds, rfl, h1⟩ := (de_struct_ok _ _ hT' _ (uniqueKeys_map.1 hur).1 _).1 hd'
  obtain ⟨e, h2⟩ := fields_of h1
  have only : ∀ x, (name, x) ∈ ds → x = .none := by
    intro x hx
    obtain ⟨t', ht', h4⟩ := h2 name x hx
    rw [hc] at h4
    exact (missing_cases h4).1
  obtain ⟨y, hy, e1⟩ := List.mem_map.1 (show name ∈ ds.map Prod.fst by rw [e]; exact List.mem_map_of_mem (f := Prod.fst) hmem)
  obtain ⟨y1, y2⟩ := y
  simp only at e1
  subst e1
  refine ⟨ds, rfl, ?_, only⟩
  rw [← only y2 hy]; exact hy

/-! ## A tool that knows only a part of the file -/

/-- The settings of a tool that knows nothing of the proxy. -/
def exTool : List (String × Ty) := [("a", .string)]
/-- The settings of the program. -/
def exWhole : List (String × Ty) := [("proxy", .option .string), ("a", .string)]

/-- The file has a proxy and an `a`; the tool reads its `a` and saves it again. It still reads the same, and the program, which had found the proxy,
finds none. -/
example : ∃ (w w' : World) (v' : Value), exTSFile.readValue w = .ok exTSOld ∧
    deAt (fun _ => []) 0 (.struct exWhole) exTSOld = .ok (.struct [("proxy", .some (.str "q")), ("a", .str "2")]) ∧
    deAt (fun _ => []) 0 (.struct exTool) exTSOld = .ok (.struct [("a", .str "2")]) ∧
    ser (.struct [("a", .str "2")]) = .ok v' ∧ exTSFile.writeValue w v' = (.ok (), w') ∧
    ∃ r, exTSFile.readValue w' = .ok r ∧ OnlyKnown (fun _ => []) (.struct exTool) r ∧
      (∃ k0, ∀ j, k0 ≤ j → ∃ d', deAt (fun _ => []) j (.struct exTool) r = .ok d' ∧ DSame (.struct [("a", .str "2")]) d') ∧
      deAt (fun _ => []) 0 (.struct exWhole) r = .ok (.struct [("proxy", .none), ("a", .str "2")]) ∧
      ∀ j d', deAt (fun _ => []) j (.struct exWhole) r = .ok d' → ∃ ds, d' = .struct ds ∧ ("proxy", .none) ∈ ds ∧ ∀ x, ("proxy", x) ∈ ds → x = .none := by
  obtain ⟨w1, hr1, hw1, -⟩ := exEd_start
  obtain ⟨hh, hd⟩ := exEd_flat [("a", .string "2")] (by simp)
  obtain ⟨w2, hok, hr2, -⟩ := exTS_step hw1 (v := .map [("a", .string "2")]) (r := .map [("a", .string "2")]) rfl hh (by
    rw [show prune (.map [("a", .string "2")]) = .map [("a", .string "2")] from rfl]
    simp only [docOf, List.attach, List.attachWith, List.pmap, List.map]; rfl)
  have hread : ∀ bs code wr, w1.disk (w1.locate (os "/c.toml")) ≠ .file bs (some code) wr := by
    intro bs code wr h
    obtain ⟨-, h2, bs', h3⟩ := hw1
    rw [show w1.locate (os "/c.toml") = 3 by rw [h2]; rfl] at h
    rcases h3 with h3 | h3 <;> rw [h3] at h <;> cases h
  have hempty : Survives (.struct []) ∧ Concrete (.struct []) ∧ OmitsNone (.struct []) :=
    ⟨.struct (by simp) (by simp), .struct (by simp), .struct (by simp) (by simp)⟩
  have hall : ∀ f ∈ exTool, f.2 = .string := by simp [exTool]
  have hS : Survives (.struct exTool) := .struct (by decide) fun f hf => by rw [hall f hf]; exact .string
  have hC : Concrete (.struct exTool) := .struct fun f hf => by rw [hall f hf]; exact .leaf (by simp)
  have hO : OmitsNone (.struct exTool) := .struct (fun f hf => by rw [hall f hf]; exact Or.inl rfl) fun f hf => by rw [hall f hf]; exact .leaf (by simp)
  obtain ⟨r, h1, h2, h3⟩ := C118_resave (exToml_like 80) (fun _ => []) (fun _ => hempty.1) (fun _ => hempty.2.1) (fun _ => hempty.2.2)
    (.struct exTool) hS hC hO w1 w2 (os "/c.toml") exTSOld hr1 0 (.struct [("a", .str "2")]) (by rfl) (.map [("a", .string "2")]) (by rfl) hd hok hread
  obtain ⟨r', h4, -, h5⟩ := C118_forgotten (exToml_like 80) (fun _ => []) (fun _ => []) (fun _ => hempty.1) (fun _ => hempty.2.1)
    (fun _ => hempty.2.2) exTool exWhole hS hC hO (by decide) "proxy" .string (by simp [exWhole]) (by decide) w1 w2 (os "/c.toml") exTSOld hr1 0
    (.struct [("a", .str "2")]) (by rfl) (.map [("a", .string "2")]) (by rfl) hd hok hread
  have e : r = r' := by rw [h1] at h4; cases h4; rfl
  subst e
  have e : r = .map [("a", .string "2")] := by rw [show exTSFile.readValue w2 = _ from h1] at hr2; cases hr2; rfl
  exact ⟨w1, w2, .map [("a", .string "2")], hr1, by rfl, by rfl, by rfl, hok, r, h1, h2, h3, by rw [e]; rfl, h5⟩

/-- Reading `C118_reread` of that file: the proxy is not in what is serialized. -/
example : ∃ v', ser (.struct [("a", .str "2")]) = .ok v' ∧ OnlyKnown (fun _ => []) (.struct exTool) v' ∧ child v' (.key "proxy") = none := by
  have hall : ∀ f ∈ exTool, f.2 = .string := by simp [exTool]
  obtain ⟨v', h1, -, h2, -⟩ := C118_reread (fun _ => []) (fun _ => .struct (by simp) (by simp)) (fun _ => .struct (by simp)) (.struct exTool)
    (.struct (by decide) fun f hf => by rw [hall f hf]; exact .string) (.struct fun f hf => by rw [hall f hf]; exact .leaf (by simp)) 0 exTSOld
    (by simp [exTSOld, UniqueKeys, UniqueKeysMap, UniqueKeysEntry]) (.struct [("a", .str "2")]) (by rfl)
  have e : v' = .map [("a", .string "2")] := by
    have : ser (.struct [("a", .str "2")]) = .ok (.map [("a", .string "2")]) := by rfl
    rw [this] at h1; cases h1; rfl
  exact ⟨v', h1, h2, by rw [e]; rfl⟩

end Verif.Props
