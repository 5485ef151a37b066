import Verif.Lemmas.Alike
import Verif.Props.Serde
import Verif.Props.Layers
/-! # Reading a foreign format, and the round trip through one (C65, C66) -/
namespace Verif.Props
open Spec

/-! ## C65: the visitor on any document -/

/-- **C65.** A document of any format is read as a `Value` exactly if it is made of scalars, lists and maps with text keys. -/
theorem C65_succeeds (d : Doc) : (∃ v, visit d = .ok v) ↔ Accepted d := visit_ok_iff d

/-- **C65.** The value read shows, at every path, exactly what the document has there: integers keep their number and
signedness, floats their number, the last of several entries for one key counts, and nothing else is there. -/
theorem C65_content (d : Doc) (v : Value) (hv : visit d = .ok v) (p : Path) (h : Head) :
    view v p = some h ↔ ∃ x, At d p x ∧ Shows x h :=
  ⟨at_of_view d v p h hv, fun ⟨_, h1, h2⟩ => view_of_at h1 hv h2⟩

/-- **C65.** So two documents that have the same at every path give indistinguishable values, and no map of the result holds a
key twice. -/
theorem C65_determined (d d' : Doc) (v v' : Value) (hv : visit d = .ok v) (hv' : visit d' = .ok v')
    (h : ∀ p h, (∃ x, At d p x ∧ Shows x h) ↔ ∃ x, At d' p x ∧ Shows x h) : Same v v' ∧ UniqueKeys v := by
  refine ⟨fun p => ?_, uniqueKeys_visit d v hv⟩
  apply Option.ext
  intro a
  rw [C65_content d v hv, C65_content d' v' hv', h]

/-- A document with a repeated key, a wide integer, a null inside an option and an `f32`. -/
def exDoc : Doc := .map [(.str "a", .int .u8 ⟨1, by decide⟩), (.str "b", .seq [.some .unit, .f32 ⟨.fin false 12582912 (-23), by decide⟩]),
  (.char 'a', .int .i16 ⟨-2, by decide⟩)]

example : ∃ v, visit exDoc = .ok v := by
  refine (C65_succeeds exDoc).2 (.map ?_ ?_)
  · intro e he
    simp at he
    rcases he with rfl | rfl | rfl
    exacts [⟨_, .str _⟩, ⟨_, .str _⟩, ⟨_, .char _⟩]
  · intro e he
    simp at he
    rcases he with rfl | rfl | rfl
    · exact .int _ _
    · refine .seq ?_
      intro d hd
      simp at hd
      rcases hd with rfl | rfl
      · exact .some .unit
      · exact .f32 _
    · exact .int _ _
/-- The later entry for `a` wins, and keeps its number. -/
example (v : Value) (hv : visit exDoc = .ok v) : view v [.key "a"] = some (.integer ⟨-2, by decide⟩) :=
  (C65_content exDoc v hv _ _).2 ⟨.int .i16 ⟨-2, by decide⟩,
    .key (before := [_, _]) (after := []) (.char 'a') (by simp) (.here _), .signed rfl (by decide) rfl⟩
example : ¬ Accepted (.map [(.int .u8 ⟨1, by decide⟩, .none)]) := by
  intro h
  cases h with
  | map h _ =>
    obtain ⟨s, hs⟩ := h (.int .u8 ⟨1, by decide⟩, .none) (by simp)
    cases hs

/-! ## C66: the round trip through a text format -/

/-- **C66.** If the format hands back a faithful presentation of a value (integers in any width that has the number, maps in
any order, `None` as null), reading it succeeds and gives a value that shows the same at every path, up to the kind of integers. -/
theorem C66_reads (v : Value) (hv : UniqueKeys v) (d : Doc) (h : Presents v d) :
    ∃ v', visit d = .ok v' ∧ Alike v v' ∧ UniqueKeys v' := by
  obtain ⟨v', h1, h2⟩ := presents_visit h hv
  exact ⟨v', h1, h2, uniqueKeys_visit d v' h1⟩

/-- **C66.** Such values convert alike: every `try_into` succeeds on one iff on the other, with the same result; so do
`get`/`at` before it. -/
theorem C66_conversions (v v' : Value) (h : Alike v v') :
    (∀ (s : Scalar) (x : s.T), v.tryInto s = .ok x ↔ v'.tryInto s = .ok x) ∧
    (∀ (s : Scalar) (d : s.T), v.intoOr s d = v'.intoOr s d) ∧
    (∀ k, Alike (v.get k) (v'.get k)) ∧ (∀ i, Alike (v.at' i) (v'.at' i)) := by
  refine ⟨alike_tryInto h, ?_, ?_, ?_⟩
  · intro s d
    rw [Value.intoOr, Value.intoOr]
    cases h1 : v.tryInto s with
    | ok x => rw [(alike_tryInto h s x).1 h1]
    | error e =>
      cases h2 : v'.tryInto s with
      | ok x => rw [(alike_tryInto h s x).2 h2] at h1; cases h1
      | error e' => rfl
  · intro k
    have := alike_child h (.key k)
    rwa [← step_eq v (.key k), ← step_eq v' (.key k)] at this
  · intro i
    have := alike_child h (.idx i)
    rwa [← step_eq v (.idx i), ← step_eq v' (.idx i)] at this

/-- **C66.** Such values deserialize alike, into every type whose scalars are concrete Rust types (no `Value` field) and
however deep recursive structs go: one succeeds iff the other does, with indistinguishable results. -/
theorem C66_deserialize (structs : Nat → List (String × Ty)) (hs : ∀ n, WellFormed (.struct (structs n)))
    (hsc : ∀ n, Concrete (.struct (structs n))) (T : Ty) (hT : WellFormed T) (hTc : Concrete T) (k : Nat)
    (v v' : Value) (hu : UniqueKeys v) (hu' : UniqueKeys v') (h : Alike v v') (hc : ¬ KeyClash structs T v) :
    ((∃ d, deAt structs k T v = .ok d) ↔ ∃ d, deAt structs k T v' = .ok d) ∧
    ∀ d d', deAt structs k T v = .ok d → deAt structs k T v' = .ok d' → DSame d d' := by
  have hf : NormFree (deAt structs k T) := de_norm (refsAt_norm hsc k) hTc
  have key := C44_order_independent structs hs T hT k (norm v) (norm v') (uniqueKeys_norm v hu) (uniqueKeys_norm v' hu')
    (alike_norm h) (fun hh => hc (clash_norm hh v rfl))
  refine ⟨?_, fun d d' hd hd' => key.2 d d' ((hf v d).1 hd) ((hf v' d').1 hd')⟩
  have e : ∀ w, (∃ d, deAt structs k T w = .ok d) ↔ ∃ d, deAt structs k T (norm w) = .ok d :=
    fun w => exists_congr (hf w)
  rw [e v, e v']; exact key.1

/-- **C66.** Merging such values gives such values. -/
theorem C66_merge (a a' b b' : Value) (ha : Alike a a') (hb : Alike b b') (hu : UniqueKeys b) (hu' : UniqueKeys b') :
    Alike (a.merge b) (a'.merge b') := alike_merge ha hb hu hu'

/-- **C66.** A successful write to a file layer whose format hands back a faithful presentation: the layer then reads a value
like the one written. -/
theorem C66_file (c : Codec) (w w' : World) (path : OsStr) (v : Value) (hu : UniqueKeys v) (text : String) (doc : Doc)
    (hok : (Layer.newFile (textHandler c) path).writeValue w v = (.ok (), w'))
    (hread : ∀ bs code wr, w.disk (w.locate path) ≠ .file bs (some code) wr)
    (hp : c.print v.toData = .ok text) (hq : c.parse text = .ok doc) (hd : Presents v doc) :
    ∃ v', (Layer.newFile (textHandler c) path).readValue w' = .ok v' ∧ Alike v v' := by
  obtain ⟨v', h1, h2, -⟩ := C66_reads v hu doc hd
  exact ⟨v', C57_read_back c w w' path v v' text doc hok hread hp hq h1, h2⟩

/-- The layer reads alike in both worlds: it fails in both, or yields alike values. -/
def ReadsAlike (w w' : World) (l : Layer) : Prop :=
  ((∃ e, l.readValue w = .error e) ∧ ∃ e, l.readValue w' = .error e) ∨
  ∃ v v', l.readValue w = .ok v ∧ l.readValue w' = .ok v' ∧ Alike v v'

theorem foldl_alike {w w' : World} : ∀ (ls : List (String × Layer)), (∀ e ∈ ls, Proper e.2) → (∀ e ∈ ls, ReadsAlike w w' e.2) →
    ∀ a a', Alike a a' → Alike ((readables w ls).foldl Value.merge a) ((readables w' ls).foldl Value.merge a') := by
  intro ls
  induction ls with
  | nil => intro _ _ a a' h; exact h
  | cons e ls ih =>
    intro hp hr a a' h
    have ih' := ih (fun e he => hp e (List.mem_cons_of_mem _ he)) (fun e he => hr e (List.mem_cons_of_mem _ he))
    rcases hr e (by simp) with ⟨⟨x, h1⟩, y, h2⟩ | ⟨v, v', h1, h2, h3⟩
    · rw [readables, readables, List.filterMap_cons, List.filterMap_cons, h1, h2]
      exact ih' a a' h
    · rw [readables, readables, List.filterMap_cons, List.filterMap_cons, h1, h2]
      exact ih' _ _ (alike_merge h h3 (hp e (by simp) w v h1) (hp e (by simp) w' v' h2))

/-- **C66.** If every registered layer reads alike in two worlds — say before and after its file was rewritten with what it
held — the two built values are alike, with and without skipping. -/
theorem C66_build (b : Build) (fm : Formats) (calls : List RegCall) (w w' : World) (skip : Bool)
    (hp : ∀ e ∈ firsts (offers b fm calls), Proper e.2)
    (hr : ∀ e ∈ firsts (offers b fm calls), ReadsAlike w w' e.2) :
    ((∃ v, (register b fm calls).buildValue w skip = .ok v) ↔ ∃ v, (register b fm calls).buildValue w' skip = .ok v) ∧
    ∀ v v', (register b fm calls).buildValue w skip = .ok v → (register b fm calls).buildValue w' skip = .ok v' →
      Alike v v' := by
  refine ⟨?_, ?_⟩
  · rw [buildValue_is (is_register b fm calls), buildValue_is (is_register b fm calls)]
    cases skip with
    | true => rw [buildList_true, buildList_true]; exact ⟨fun _ => ⟨_, rfl⟩, fun _ => ⟨_, rfl⟩⟩
    | false =>
      simp only [(buildList_false w _ _).1, (buildList_false w' _ _).1, exists_and_left, exists_eq, and_true]
      refine forall_congr' fun e => forall_congr' fun he => ?_
      rcases hr e he with ⟨⟨x, h1⟩, y, h2⟩ | ⟨v, v', h1, h2, -⟩
      · rw [h1, h2]; simp
      · rw [h1, h2]; simp
  · intro v v' h1 h2
    rw [build_ok h1, build_ok h2]
    exact foldl_alike _ hp hr _ _ (Alike.refl _)

/-! ### A concrete case -/

/-- A `UInteger` in a map: a text format hands it back as a signed integer, and the map in its own order. -/
def exOriginal : Value := .map [("b", .array [.uInteger ⟨7, by decide⟩, .none]), ("a", .string "x")]
def exPresented : Doc := .map [(.str "a", .char 'x'), (.str "b", .seq [.int .i64 ⟨7, by decide⟩, .unit])]

theorem exPresents : Presents exOriginal exPresented := by
  refine .map [("a", .string "x"), ("b", .array [.uInteger ⟨7, by decide⟩, .none])] (List.Perm.swap _ _ _) rfl ?_ ?_
  · rintro (_ | _ | i) k x k' d h1 h2
    · simp at h1 h2; obtain ⟨rfl, rfl⟩ := h1; obtain ⟨rfl, rfl⟩ := h2; exact .str _
    · simp at h1 h2; obtain ⟨rfl, rfl⟩ := h1; obtain ⟨rfl, rfl⟩ := h2; exact .str _
    · simp at h1
  · rintro (_ | _ | i) k x k' d h1 h2
    · simp at h1 h2; obtain ⟨rfl, rfl⟩ := h1; obtain ⟨rfl, rfl⟩ := h2; exact .char 'x'
    · simp at h1 h2; obtain ⟨rfl, rfl⟩ := h1; obtain ⟨rfl, rfl⟩ := h2
      refine .array rfl ?_
      rintro (_ | _ | i) x d h1 h2
      · simp at h1 h2; subst h1; subst h2; exact .int rfl rfl
      · simp at h1 h2; subst h1; subst h2; exact .unit
      · simp at h1
    · simp at h1

/-! ### C66 at work -/

theorem exOriginal_unique : UniqueKeys exOriginal := by
  simp [exOriginal, UniqueKeys, UniqueKeysList, UniqueKeysMap, UniqueKeysEntry]

/-- The example document reads as a value that is alike the original; so it converts alike … -/
example : ∃ v', visit exPresented = .ok v' ∧ Alike exOriginal v' ∧
    ((v'.get "b").at' 0).intoOr (.int .u8) ⟨0, by decide⟩ = ⟨7, by decide⟩ := by
  obtain ⟨v', h1, h2, -⟩ := C66_reads exOriginal exOriginal_unique exPresented exPresents
  refine ⟨v', h1, h2, ?_⟩
  have h3 := (C66_conversions _ _ h2).2.2.1 "b"
  have h4 := (C66_conversions _ _ h3).2.2.2 0
  rw [← (C66_conversions _ _ h4).2.1 (.int .u8) ⟨0, by decide⟩]
  decide

/-- … and deserializes into the same data. -/
example : ∃ v', visit exPresented = .ok v' ∧
    ∀ d, deAt (fun _ => []) 1 (.struct [("a", .char), ("b", .seq (.option (.int .u8)))]) v' = .ok d →
      DSame (.struct [("a", .char 'x'), ("b", .seq [.some (.int .u8 ⟨7, by decide⟩), .none])]) d := by
  obtain ⟨v', h1, h2, h3⟩ := C66_reads exOriginal exOriginal_unique exPresented exPresents
  refine ⟨v', h1, fun d hd => ?_⟩
  have hemp : ∀ _ : Nat, WellFormed (.struct []) := fun _ => .struct (by simp) (by simp)
  have hempc : ∀ _ : Nat, Concrete (.struct []) := fun _ => .struct (by simp)
  refine (C66_deserialize (fun _ => []) hemp hempc (.struct [("a", .char), ("b", .seq (.option (.int .u8)))]) ?_ ?_ 1 exOriginal v'
    exOriginal_unique h3 h2 ?_).2 _ _ (by rfl) hd
  · refine .struct (by decide) ?_
    intro f hf
    simp only [List.mem_cons, List.not_mem_nil, or_false] at hf
    rcases hf with rfl | rfl
    exacts [.char, .seq (.option (.int _))]
  · refine .struct ?_
    intro f hf
    simp only [List.mem_cons, List.not_mem_nil, or_false] at hf
    rcases hf with rfl | rfl
    exacts [.leaf (by simp), .seq (.option (.int _))]
  · intro hk
    cases hk with
    | struct hm _ hx =>
      simp only [List.mem_cons, Prod.mk.injEq, List.not_mem_nil, or_false] at hm
      rcases hm with ⟨-, rfl⟩ | ⟨-, rfl⟩
      · cases hx
      · cases hx with
        | seq _ hy => cases hy with | option hz => cases hz

/-- Merging the original, or what was read for it, over something. -/
example : ∃ v', visit exPresented = .ok v' ∧ Alike (exA.merge exOriginal) (exA.merge v') := by
  obtain ⟨v', h1, h2, h3⟩ := C66_reads exOriginal exOriginal_unique exPresented exPresents
  refine ⟨v', h1, C66_merge exA exA exOriginal v' (fun p => ?_) h2 exOriginal_unique h3⟩
  cases view exA p with
  | none => exact Or.inl ⟨rfl, rfl⟩
  | some h => exact Or.inr ⟨h, h, rfl, rfl, Or.inl rfl⟩

/-- A format that prints everything as `t` and hands back the example document: the file reads as a value alike the one written. -/
example (w' : World) :
    let c : Codec := { parse := fun _ => .ok exPresented, print := fun _ => .ok "t" }
    (Layer.newFile (textHandler c) (os "/a.toml")).writeValue exDisk exOriginal = (.ok (), w') →
    ∃ v', (Layer.newFile (textHandler c) (os "/a.toml")).readValue w' = .ok v' ∧ Alike exOriginal v' := by
  intro c h
  refine C66_file c exDisk w' (os "/a.toml") exOriginal exOriginal_unique "t" exPresented h ?_ rfl rfl exPresents
  intro bs code wr hd
  have e : exDisk.disk (exDisk.locate (os "/a.toml")) = .file (utf8 "hi") none none := by rfl
  rw [e] at hd; cases hd
example : ∃ w', (Layer.newFile (textHandler { parse := fun _ => .ok exPresented, print := fun _ => .ok "t" }) (os "/a.toml")).writeValue
    exDisk exOriginal = (.ok (), w') := ⟨_, rfl⟩

/-- Two worlds in which a file holds the number 7 in two widths: builds are alike. -/
example :
    let c : Codec := { parse := fun s => if s = "u" then .ok (.map [(.str "n", .int .u64 ⟨7, by decide⟩)]) else
                         if s = "i" then .ok (.map [(.str "n", .int .i64 ⟨7, by decide⟩)]) else .error "syntax",
                       print := fun _ => .error "unsupported" }
    let w : World := { exDisk with disk := fun s => if s = 1 then .file (utf8 "u") none none else .file (utf8 "bad") none none }
    let w' : World := { exDisk with disk := fun s => if s = 1 then .file (utf8 "i") none none else .file (utf8 "bad") none none }
    let calls : List RegCall := [.file "f" (os "/a.toml"), .file "g" (os "/b.toml")]
    ∀ v v', (register exB1 ⟨c, c⟩ calls).buildValue w true = .ok v → (register exB1 ⟨c, c⟩ calls).buildValue w' true = .ok v' →
      Alike v v' := by
  intro c w w' calls
  have hl : firsts (offers exB1 ⟨c, c⟩ calls) = [("f", .file (textHandler c) (os "/a.toml")), ("g", .file (textHandler c) (os "/b.toml"))] := by
    rfl
  refine (C66_build exB1 ⟨c, c⟩ calls w w' true ?_ ?_).2
  · intro e he
    obtain ⟨x, hx, ho⟩ := List.mem_filterMap.1 (mem_firsts he)
    simp only [calls, List.mem_cons, List.not_mem_nil, or_false] at hx
    apply C08_builtin_proper exB1 ⟨c, c⟩ x e _ _ ho <;> rcases hx with rfl | rfl <;> first | trivial | simp
  · rw [hl]
    intro e he
    simp only [List.mem_cons, List.not_mem_nil, or_false] at he
    rcases he with rfl | rfl
    · refine Or.inr ⟨.map [("n", .uInteger ⟨7, by decide⟩)], .map [("n", .integer ⟨7, by decide⟩)], by rfl, by rfl, ?_⟩
      obtain ⟨v', h1, h2, -⟩ := C66_reads (.map [("n", .uInteger ⟨7, by decide⟩)])
        (by simp [UniqueKeys, UniqueKeysMap, UniqueKeysEntry]) (.map [(.str "n", .int .i64 ⟨7, by decide⟩)]) (by
          refine .map [("n", .uInteger ⟨7, by decide⟩)] (.refl _) rfl ?_ ?_
          · rintro (_ | i) k x k' d h1 h2
            · cases h1; cases h2; exact .str _
            · cases h1
          · rintro (_ | i) k x k' d h1 h2
            · cases h1; cases h2; exact .int rfl rfl
            · cases h1)
      have e : visit (.map [(.str "n", .int .i64 ⟨7, by decide⟩)]) = .ok (.map [("n", .integer ⟨7, by decide⟩)]) := by rfl
      rw [e] at h1; cases h1
      exact h2
    · exact Or.inl ⟨⟨_, rfl⟩, ⟨_, rfl⟩⟩

example : UniqueKeys exOriginal := by simp [exOriginal, UniqueKeys, UniqueKeysList, UniqueKeysMap, UniqueKeysEntry]

/-- **C66.** The caveat is real: the kind of an integer is not kept. -/
theorem C66_kind_is_lost : ∃ v d v', UniqueKeys v ∧ Presents v d ∧ visit d = .ok v' ∧ Alike v v' ∧ ¬ Same v v' := by
  refine ⟨.uInteger ⟨7, by decide⟩, .int .i64 ⟨7, by decide⟩, .integer ⟨7, by decide⟩, trivial, .int rfl rfl, rfl, ?_, ?_⟩
  · exact alike_leaf (by intro s; cases s <;> rfl) (by intro s; cases s <;> rfl) (Or.inr ⟨7, rfl, rfl⟩)
  · intro h; have := h []; simp [view, head] at this

end Verif.Props
