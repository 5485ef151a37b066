import Verif.Spec.Worst
import Verif.Props.Stack
import Verif.Props.EnvSettings
import Verif.Spec.Writing
/-!
# C139: what a configuration can do at worst
-/
namespace Verif.Props
open Verif Verif.Spec

/-! ## A panic has a cause in the type -/

theorem vecLoop_panic {dec : Decoder} {xs : List Value} : ∀ {acc : List Data}, deVecLoop dec acc xs = .panic → ∃ x ∈ xs, dec x = .panic := by
  intro acc h
  by_contra hn
  exact deVecLoop_noPanic dec xs (fun x hx hp => hn ⟨x, hx, hp⟩) acc h

theorem mapLoop_panic {kt : KeyTy} {dec : Decoder} {m : Entries} : ∀ {acc : List (Key × Data)}, deMapLoop kt dec acc m = .panic →
    ∃ e ∈ m, (∃ key, deKey kt e.1 = .ok key) ∧ dec e.2 = .panic := by
  induction m with
  | nil => intro acc h; cases h
  | cons e r ih =>
    intro acc h
    obtain ⟨k, v⟩ := e
    rw [deMapLoop] at h
    simp only [bind_eq_panic] at h
    rcases h with h1 | ⟨a, ha, h1 | ⟨d, _, h1⟩⟩
    · exact absurd h1 (deKey_noPanic _ _)
    · exact ⟨(k, v), by simp, ⟨a, ha⟩, h1⟩
    · obtain ⟨e, he, h2⟩ := ih h1
      exact ⟨e, by simp [he], h2⟩

theorem tupleLoop_panic {refs : Nat → Decoder} {ts : List Ty} : ∀ {xs : List Value} {i : Nat} {acc : List Data},
    deTupleLoop i acc (decoders refs ts) xs = .panic →
    ∃ before T after, ts = before ++ T :: after ∧ (∀ B ∈ before, ∃ x ∈ xs, ∃ d, de refs B x = .ok d) ∧ ∃ x ∈ xs, de refs T x = .panic := by
  induction ts with
  | nil => intro xs i acc h; rw [decoders, deTupleLoop] at h; cases h
  | cons t r ih =>
    intro xs i acc h
    rw [decoders] at h
    cases xs with
    | nil => rw [deTupleLoop] at h; cases h
    | cons x xr =>
      rw [deTupleLoop, bind_eq_panic] at h
      rcases h with h | ⟨d, hd, h⟩
      · exact ⟨[], t, r, rfl, by simp, x, by simp, h⟩
      · obtain ⟨before, T, after, rfl, h2, x', hx', h3⟩ := ih h
        refine ⟨t :: before, T, after, rfl, fun B hB => ?_, x', by simp [hx'], h3⟩
        rcases List.mem_cons.1 hB with rfl | hB
        · exact ⟨x, by simp, d, hd⟩
        · obtain ⟨y, hy, h4⟩ := h2 B hB
          exact ⟨y, by simp [hy], h4⟩

theorem struct_panic {refs : Nat → Decoder} {fs : List (String × Ty)} {v : Value} (h : de refs (.struct fs) v = .panic) :
    ∃ m, v = .map m ∧ ∃ e ∈ m, ∃ f ∈ fs, de refs f.2 e.2 = .panic := by
  by_contra hn
  exact de_struct_noPanic refs fs v (fun m hm e he f hf hp => hn ⟨m, hm, e, he, f, hf, hp⟩) h

theorem explosive_of_panic {structs : Nat → List (String × Ty)} {K k : Nat}
    (hr : ∀ n x, UniqueKeys x → DepthBelow x k → refsAt structs K n x = .panic → Explosive structs (.ref n)) (T : Ty) :
    ∀ v, UniqueKeys v → DepthBelow v k → de (refsAt structs K) T v = .panic → Explosive structs T := by
  have sc : ∀ {α : Type} {x : Except ModelError α} {f : α → Data},
      (Outcome.ofExcept x >>= fun a => Outcome.ok (f a)) ≠ .panic := by
    intro α x f h
    rw [bind_eq_panic] at h
    rcases h with h | ⟨_, _, h⟩
    · exact ofExcept_panic h
    · cases h
  intro v hu hd h
  cases T with
  | bool => rw [de] at h; exact absurd h sc
  | int t =>
    rw [de, bind_eq_panic] at h
    rcases h with h | ⟨_, _, h⟩
    · exact absurd h (deInt_noPanic _ _)
    · cases h
  | f32 => rw [de] at h; exact absurd h sc
  | f64 => rw [de] at h; exact absurd h sc
  | char => rw [de] at h; exact absurd h sc
  | string => rw [de] at h; exact absurd h sc
  | unit => cases v <;> simp [de] at h
  | unitStruct => cases v <;> simp [de] at h
  | value =>
    obtain ⟨w, hw⟩ := deValue_noPanic v
    rw [de, hw] at h; simp at h
  | bytes => exact .bytes
  | enum => exact .enum
  | option T =>
    refine .option (explosive_of_panic hr T v hu hd ?_)
    cases v <;> simp only [de, bind_eq_panic, reduceCtorEq, and_false, exists_false, or_false] at h <;> exact h
  | newtype T =>
    refine .newtype (explosive_of_panic hr T v hu hd ?_)
    simp only [de, bind_eq_panic, reduceCtorEq, and_false, exists_false, or_false] at h
    exact h
  | seq T =>
    cases v <;> simp only [de, bind_eq_panic, reduceCtorEq, and_false, exists_false, or_false] at h
    rename_i xs
    obtain ⟨x, hx, hp⟩ := vecLoop_panic h
    obtain ⟨i, hi⟩ := child_of_mem_array hx
    exact .seq (explosive_of_panic hr T x (uniqueKeys_array.1 hu x hx) (depth_child' hd hi) hp)
  | tuple ts =>
    cases v <;> simp only [de, bind_eq_panic, reduceCtorEq, and_false, exists_false, or_false] at h
    rename_i xs
    obtain ⟨before, T, after, he, hb, x, hx, hp⟩ := tupleLoop_panic h
    have hs : sizeOf T < 1 + sizeOf ts := by
      have : sizeOf T < sizeOf ts := List.sizeOf_lt_of_mem (by rw [he]; simp)
      omega
    subst he
    obtain ⟨i, hi⟩ := child_of_mem_array hx
    refine .tuple (fun B hB => ?_) (explosive_of_panic hr T x (uniqueKeys_array.1 hu x hx) (depth_child' hd hi) hp)
    obtain ⟨y, hy, d, hyd⟩ := hb B hB
    exact ⟨y, K, d, uniqueKeys_array.1 hu y hy, hyd⟩
  | tupleStruct ts =>
    cases v <;> simp only [de, bind_eq_panic, reduceCtorEq, and_false, exists_false, or_false] at h
    rename_i xs
    obtain ⟨before, T, after, he, hb, x, hx, hp⟩ := tupleLoop_panic h
    have hs : sizeOf T < 1 + sizeOf ts := by
      have : sizeOf T < sizeOf ts := List.sizeOf_lt_of_mem (by rw [he]; simp)
      omega
    subst he
    obtain ⟨i, hi⟩ := child_of_mem_array hx
    refine .tupleStruct (fun B hB => ?_) (explosive_of_panic hr T x (uniqueKeys_array.1 hu x hx) (depth_child' hd hi) hp)
    obtain ⟨y, hy, d, hyd⟩ := hb B hB
    exact ⟨y, K, d, uniqueKeys_array.1 hu y hy, hyd⟩
  | map kt T =>
    cases v <;> simp only [de, bind_eq_panic, reduceCtorEq, and_false, exists_false, or_false] at h
    rename_i m
    obtain ⟨e, he, ⟨key, hk⟩, hp⟩ := mapLoop_panic h
    have hu' := uniqueKeys_map.1 hu
    refine .map ?_ ?_ (explosive_of_panic hr T e.2 (hu'.2 e he) (depth_child' hd (child_of_mem_map hu'.1 he)) hp)
    · rintro rfl; simp [deKey, deInt] at hk
    · rintro rfl; simp [deKey, deInt] at hk
  | struct fs =>
    obtain ⟨m, rfl, e, he, f, hf, hp⟩ := struct_panic h
    have hu' := uniqueKeys_map.1 hu
    have hs : sizeOf f.2 < 1 + sizeOf fs := by
      have : sizeOf f < sizeOf fs := List.sizeOf_lt_of_mem hf
      have : sizeOf f = 1 + sizeOf f.1 + sizeOf f.2 := by cases f; rfl
      omega
    obtain ⟨n, t⟩ := f
    exact .struct hf (explosive_of_panic hr t e.2 (hu'.2 e he) (depth_child' hd (child_of_mem_map hu'.1 he)) hp)
  | ref n => rw [de] at h; exact hr n v hu hd h
  termination_by sizeOf T

theorem explosive_refs {structs : Nat → List (String × Ty)} : ∀ k n v, UniqueKeys v → DepthBelow v k → refsAt structs k n v = .panic →
    Explosive structs (.ref n) := by
  intro k
  induction k with
  | zero => intro n v _ hd; exact absurd (hd [] (by simp [view])) (by simp)
  | succ k ih =>
    intro n v hu hd h
    rw [refsAt] at h
    obtain ⟨m, rfl, e, he, f, hf, hp⟩ := struct_panic h
    have hu' := uniqueKeys_map.1 hu
    obtain ⟨name, t⟩ := f
    exact .ref (.struct hf (explosive_of_panic ih t e.2 (hu'.2 e he) (depth_child hd (child_of_mem_map hu'.1 he)) hp))

/-- **C139.** A type without enums and byte buffers that a read could come upon: whatever the value, the read does not panic (the stack holding as many nested
structs as the value has levels). -/
theorem C139_safe (structs : Nat → List (String × Ty)) (T : Ty) (hT : ¬ Explosive structs T) (v : Value) (hv : UniqueKeys v) (k : Nat) (hk : DepthBelow v k) :
    deAt structs k T v ≠ .panic :=
  fun h => hT (explosive_of_panic (explosive_refs k) T v hv hk h)

/-! ## Such a type can be made to panic -/

theorem readable_stack {structs : Nat → List (String × Ty)} {T : Ty} {v : Value} {k : Nat} {d : Data} (h : deAt structs k T v = .ok d) (j : Nat) :
    deAt structs j T v = .panic ∨ deAt structs j T v = .ok d := by
  by_cases hp : deAt structs j T v = .panic
  · exact Or.inl hp
  · right
    rw [← C38_stack structs T v j (max j k) hp (le_max_left _ _), C38_stack structs T v k (max j k) (by rw [h]; simp) (le_max_right _ _), h]

theorem tuple_explodes {structs : Nat → List (String × Ty)} {T : Ty} {x : Value} (hx : ∀ k, deAt structs k T x = .panic) (after : List Ty) :
    ∀ (before : List Ty), (∀ B ∈ before, HasReading structs B) → ∃ xs : List Value, xs ≠ [] ∧ (∀ y ∈ xs, y = x ∨ UniqueKeys y) ∧
      ∀ k i acc, deTupleLoop i acc (decoders (refsAt structs k) (before ++ T :: after)) xs = .panic := by
  intro before
  induction before with
  | nil =>
    intro _
    refine ⟨[x], by simp, by simp, fun k i acc => ?_⟩
    rw [List.nil_append, decoders, deTupleLoop]
    have := hx k
    rw [deAt] at this
    rw [this]; rfl
  | cons B before ih =>
    intro hb
    obtain ⟨xs, -, h1, h2⟩ := ih fun C hC => hb C (by simp [hC])
    obtain ⟨y, k0, d, hy, hd⟩ := hb B (by simp)
    refine ⟨y :: xs, by simp, fun z hz => ?_, fun k i acc => ?_⟩
    · rcases List.mem_cons.1 hz with rfl | hz
      · exact Or.inr hy
      · exact h1 z hz
    · rw [List.cons_append, decoders, deTupleLoop]
      rcases readable_stack hd k with h | h
      · rw [deAt] at h; rw [h]; rfl
      · rw [deAt] at h; rw [h]; exact h2 k _ _

theorem key_spelled (kt : KeyTy) (h1 : kt ≠ .int .i128) (h2 : kt ≠ .int .u128) : ∃ s key, deKey kt s = .ok key := by
  cases kt with
  | bool => exact ⟨"true", _, by rfl⟩
  | char => exact ⟨"a", _, by rfl⟩
  | string => exact ⟨"a", _, by rfl⟩
  | int t => cases t <;> first | exact ⟨"0", _, by rfl⟩ | exact absurd rfl h1 | exact absurd rfl h2

theorem struct_explodes {structs : Nat → List (String × Ty)} (k : Nat) {fs : List (String × Ty)} {name : String} {T : Ty} (hn : (fs.map Prod.fst).Nodup)
    (hm : (name, T) ∈ fs) {x : Value} (hx : de (refsAt structs k) T x = .panic) : de (refsAt structs k) (.struct fs) (.map [(name, x)]) = .panic := by
  rw [de, deStruct, deStructLoop]
  have hs : Outcome.ofExcept ((Value.string name).tryInto .string) = .ok name := rfl
  rw [hs]
  have hf : ∀ fs : List (String × Ty), (fs.map Prod.fst).Nodup → (name, T) ∈ fs →
      (fieldDecoders (refsAt structs k) fs).find? (fun fd => fd.name == name) = some ⟨name, fun v => de (refsAt structs k) T v, missingField name T⟩ := by
    intro fs
    induction fs with
    | nil => intro _ h; cases h
    | cons f r ih =>
      intro hn hm
      obtain ⟨n, t⟩ := f
      rw [fieldDecoders, fieldDecoder, List.find?_cons]
      simp only [List.map_cons, List.nodup_cons] at hn
      rcases List.mem_cons.1 hm with e | hm
      · cases e; simp
      · have : n ≠ name := fun e => hn.1 (by rw [e]; exact List.mem_map_of_mem (f := Prod.fst) hm)
        rw [show (n == name) = false by simpa using this]
        exact ih hn.2 hm
  simp only [Outcome.bind_ok, hf fs hn hm, hmGet, Option.isSome_none, Bool.false_eq_true, if_false, hx]
  rfl

theorem explosive_explodes {structs : Nat → List (String × Ty)} (hs : ∀ n, WellFormed (.struct (structs n))) {T : Ty} (hT : Explosive structs T) (hw : WellFormed T) :
    ∃ v, UniqueKeys v ∧ v ≠ .none ∧ ∀ k, deAt structs k T v = .panic := by
  have one : ∀ x : Value, UniqueKeys x → ∀ key : String, UniqueKeys (.map [(key, x)]) := by
    intro x hx key
    refine uniqueKeys_map.2 ⟨by simp, fun e he => ?_⟩
    rw [List.mem_singleton] at he; subst he; exact hx
  induction hT with
  | enum => exact ⟨.boolean true, by simp [UniqueKeys], by simp, fun k => by rw [deAt, de]⟩
  | bytes => exact ⟨.boolean true, by simp [UniqueKeys], by simp, fun k => by rw [deAt, de]⟩
  | option _ ih =>
    cases hw with | option hw =>
    obtain ⟨v, h1, h2, h3⟩ := ih hw
    refine ⟨v, h1, h2, fun k => ?_⟩
    have := h3 k
    rw [deAt] at this ⊢
    rw [de]
    · rw [this]; rfl
    · exact fun e => absurd e h2
  | newtype _ ih =>
    cases hw with | newtype hw =>
    obtain ⟨v, h1, h2, h3⟩ := ih hw
    refine ⟨v, h1, h2, fun k => ?_⟩
    have := h3 k
    rw [deAt] at this ⊢
    rw [de, this]; rfl
  | seq _ ih =>
    cases hw with | seq hw =>
    obtain ⟨v, h1, h2, h3⟩ := ih hw
    refine ⟨.array [v], uniqueKeys_array.2 (by simpa using h1), by simp, fun k => ?_⟩
    have := h3 k
    rw [deAt] at this ⊢
    simp only [de, deVecLoop, this]; rfl
  | @map kt T k1 k2 _ ih =>
    cases hw with | map hw =>
    obtain ⟨v, h1, h2, h3⟩ := ih hw
    obtain ⟨s, key, hk⟩ := key_spelled kt k1 k2
    refine ⟨.map [(s, v)], one v h1 s, by simp, fun k => ?_⟩
    have := h3 k
    rw [deAt] at this ⊢
    simp only [de, deMapLoop, hk, this]; rfl
  | @tuple before after T hb _ ih =>
    cases hw with | tuple hw =>
    obtain ⟨v, h1, h2, h3⟩ := ih (hw T (by simp))
    obtain ⟨xs, -, g1, g2⟩ := tuple_explodes h3 after before hb
    refine ⟨.array xs, uniqueKeys_array.2 fun y hy => (g1 y hy).elim (fun e => e ▸ h1) id, by simp, fun k => ?_⟩
    rw [deAt]
    simp only [de, g2 k]; rfl
  | @tupleStruct before after T hb _ ih =>
    cases hw with | tupleStruct hw =>
    obtain ⟨v, h1, h2, h3⟩ := ih (hw T (by simp))
    obtain ⟨xs, -, g1, g2⟩ := tuple_explodes h3 after before hb
    refine ⟨.array xs, uniqueKeys_array.2 fun y hy => (g1 y hy).elim (fun e => e ▸ h1) id, by simp, fun k => ?_⟩
    rw [deAt]
    simp only [de, g2 k]; rfl
  | @struct fs name T hm _ ih =>
    cases hw with | struct hn hw =>
    obtain ⟨v, h1, h2, h3⟩ := ih (hw _ hm)
    exact ⟨.map [(name, v)], one v h1 name, by simp, fun k => struct_explodes k hn hm (h3 k)⟩
  | @ref n h ih =>
    obtain ⟨v, h1, h2, h3⟩ := ih (hs n)
    refine ⟨v, h1, h2, fun k => ?_⟩
    rw [deAt, de]
    cases k with
    | zero => rfl
    | succ k => exact h3 k

/-- **C139.** The types that a configuration can crash: for some value the read panics however large the stack, exactly if reading the type can come
upon an enum or a byte buffer. -/
theorem C139_type (structs : Nat → List (String × Ty)) (hs : ∀ n, WellFormed (.struct (structs n))) (T : Ty) (hw : WellFormed T) :
    (∃ v, UniqueKeys v ∧ ∀ k, deAt structs k T v = .panic) ↔ Explosive structs T := by
  constructor
  · rintro ⟨v, hu, h⟩
    obtain ⟨k, hk⟩ := C38_depth_exists v hu
    by_contra hn
    exact C139_safe structs T hn v hu k hk (h k)
  · intro h
    obtain ⟨v, h1, -, h3⟩ := explosive_explodes hs h hw
    exact ⟨v, h1, h3⟩

/-! ## Programs -/

/-- **C139.** A program that calls `create_config!` and reads its configuration, skipping what cannot be read, as a type without such parts: whatever the
world at its start and at each later read, nothing panics; the value is there, and reading it gives the settings or an error (given the stack the
value's levels need). -/
theorem C139_start (b : Build) (fm : Formats) (w : World) (args : MacroArgs) (hd : ∀ e ∈ args.default, UniqueKeys e.2)
    (structs : Nat → List (String × Ty)) (T : Ty) (hT : ¬ Explosive structs T) :
    ∃ c w', createConfig b fm w args = .ok (c, w') ∧
      ∀ u : World, ∃ v, c.buildValue u true = .ok v ∧ ∃ k, ∀ j, k ≤ j → deAt structs j T v ≠ .panic := by
  obtain ⟨c, w', dv, h1, -, h3, h4⟩ := C95_defaults b fm w args hd
  refine ⟨c, w', h1, fun u => ?_⟩
  obtain ⟨v, hv⟩ := h3 u
  have hu := (h4 u true v hv).2.1
  obtain ⟨k, hk⟩ := C38_depth_exists v hu
  exact ⟨v, hv, k, fun j hj => C139_safe structs T hT v hu j (depth_mono hk hj)⟩

/-- **C139.** Settings with a field that can be crashed: there is a map such that, wherever the only layer is a file whose text stands for it, the program
gets its value and panics reading it, however large its stack. -/
theorem C139_file (structs : Nat → List (String × Ty)) (hs : ∀ n, WellFormed (.struct (structs n))) (fs : List (String × Ty)) (hw : WellFormed (.struct fs))
    (hT : Explosive structs (.struct fs)) :
    ∃ m, UniqueKeys (.map m) ∧ ∀ (b : Build) (fm : Formats) (name : String) (p : OsStr) (cd : Codec) (w : World) (skip : Bool) (text : String) (doc : Doc)
      (writeErr : Option Nat), FormatOf b fm p cd → w.disk (w.locate p) = .file (utf8 text) none writeErr → cd.parse text = .ok doc → visit doc = .ok (.map m) →
      ∃ v, (register b fm [.file name p]).buildValue w skip = .ok v ∧ ∀ k, deAt structs k (.struct fs) v = .panic := by
  cases hT with
  | @struct _ name T hm hT =>
    cases hw with | struct hn hw =>
    obtain ⟨x, h1, -, h3⟩ := explosive_explodes hs hT (hw _ hm)
    have hu : UniqueKeys (.map [(name, x)]) := by
      refine uniqueKeys_map.2 ⟨by simp, fun e he => ?_⟩
      rw [List.mem_singleton] at he; subst he; exact h1
    refine ⟨[(name, x)], hu, fun b fm n p cd w skip text doc we hf hdisk hparse hvisit => ⟨.map [(name, x)], ?_, fun k => struct_explodes k hn hm (h3 k)⟩⟩
    have he : w.pathExists p = true := by simp [World.pathExists, hdisk]
    have hr := (C56_content cd w p he (.map [(name, x)])).2 ⟨text, doc, we, hdisk, hparse, hvisit⟩
    have := C14_add_last b fm [] (.file n p) w skip (n, .file (textHandler cd) p) _ (.map []) (TextFmt.offer hf n) (by simp [offers]) hr rfl
    rw [List.nil_append] at this
    rw [this, merge_map_map]
    rfl

/-- A struct's read panics only over a field's own value. -/
theorem struct_panic_field {refs : Nat → Decoder} {fs : List (String × Ty)} {v : Value} (h : de refs (.struct fs) v = .panic) :
    ∃ m, v = .map m ∧ ∃ f ∈ fs, ∃ x, (f.1, x) ∈ m ∧ de refs f.2 x = .panic := by
  have loop : ∀ (m : Entries) (acc : List (String × Data)), deStructLoop (fieldDecoders refs fs) acc m = .panic →
      ∃ f ∈ fs, ∃ x, (f.1, x) ∈ m ∧ de refs f.2 x = .panic := by
    intro m
    induction m with
    | nil => intro acc h; cases h
    | cons e r ih =>
      intro acc h
      obtain ⟨k, x⟩ := e
      have hk : Outcome.ofExcept ((Value.string k).tryInto .string) = .ok k := rfl
      have next : ∀ acc, deStructLoop (fieldDecoders refs fs) acc r = .panic → ∃ f ∈ fs, ∃ y, (f.1, y) ∈ (k, x) :: r ∧ de refs f.2 y = .panic := by
        intro acc h
        obtain ⟨f, hf, y, hy, hp⟩ := ih acc h
        exact ⟨f, hf, y, by simp [hy], hp⟩
      rw [deStructLoop, hk, Outcome.bind_ok] at h
      split at h
      · rename_i fd hfd
        split at h
        · cases h
        · rw [bind_eq_panic] at h
          rcases h with h | ⟨d, -, h⟩
          · rw [fieldDecoders_eq] at hfd
            obtain ⟨f, hf, rfl⟩ := List.mem_map.1 (List.mem_of_find?_eq_some hfd)
            have := List.find?_some hfd
            have hkf : f.1 = k := by simpa [fieldDecoder] using this
            exact ⟨f, hf, x, by simp [hkf], h⟩
          · exact next _ h
      · rw [deIgnored_ok, Outcome.bind_ok] at h
        exact next _ h
  cases v with
  | map m =>
    refine ⟨m, rfl, ?_⟩
    rw [de] at h
    simp only [deStruct, bind_eq_panic] at h
    rcases h with h1 | ⟨a, _, h1 | ⟨_, _, h1⟩⟩
    · exact loop m [] h1
    · rw [fieldDecoders_eq] at h1
      refine absurd h1 (deStructFinish_noPanic _ _ ?_)
      intro fd hfd
      obtain ⟨f, hf, rfl⟩ := List.mem_map.1 hfd
      exact missingField_noPanic _ _
    · cases h1
  | _ => rw [de] at h; simp [deStruct] at h

/-- The loop over a struct's entries panics over one entry, if no other entry is an error. -/
theorem structLoop_panics {fds : List FieldDec} {key : String} {x : Value} {fd : FieldDec} (hfd : fds.find? (fun fd => fd.name == key) = some fd)
    (hp : fd.dec x = .panic) : ∀ (m : Entries) (acc : List (String × Data)), (m.map Prod.fst).Nodup → (∀ e ∈ m, hmGet acc e.1 = none) → (key, x) ∈ m →
      (∀ e ∈ m, e.1 ≠ key → ∀ g, fds.find? (fun fd => fd.name == e.1) = some g → ∃ d, g.dec e.2 = .ok d) → deStructLoop fds acc m = .panic := by
  intro m
  induction m with
  | nil => intro acc _ _ h; cases h
  | cons e r ih =>
    intro acc hn ha hm ho
    obtain ⟨k, y⟩ := e
    simp only [List.map_cons, List.nodup_cons] at hn
    rw [deStructLoop, string_self, Outcome.bind_ok]
    have h0 := ha (k, y) List.mem_cons_self
    dsimp only at h0
    rcases List.mem_cons.1 hm with e | hm
    · cases e
      rw [hfd]; simp only [h0, Option.isSome_none, Bool.false_eq_true, if_false, hp]; rfl
    · have hk : k ≠ key := fun e => hn.1 (by rw [e]; exact List.mem_map_of_mem (f := Prod.fst) hm)
      have hr : ∀ e ∈ r, e.1 ≠ key → ∀ g, fds.find? (fun fd => fd.name == e.1) = some g → ∃ d, g.dec e.2 = .ok d :=
        fun e he => ho e (List.mem_cons_of_mem _ he)
      split
      · rename_i g hg
        obtain ⟨d, hd⟩ := ho (k, y) List.mem_cons_self hk g hg
        simp only [h0, Option.isSome_none, Bool.false_eq_true, if_false, hd, Outcome.bind_ok]
        refine ih _ hn.2 (fun e he => ?_) hm hr
        have : e.1 ≠ k := fun h => hn.1 (by rw [← h]; exact List.mem_map_of_mem (f := Prod.fst) he)
        rw [hmGet_insert, if_neg (Ne.symm this)]
        exact ha e (List.mem_cons_of_mem _ he)
      · rw [deIgnored_ok, Outcome.bind_ok]
        exact ih _ hn.2 (fun e he => ha e (List.mem_cons_of_mem _ he)) hm hr

/-- **C139.** One field whose value makes its read panic, while the other fields that are present can be read: the whole read panics, whatever the order of
the map. -/
theorem C139_field (structs : Nat → List (String × Ty)) (k : Nat) (fs : List (String × Ty)) (hf : (fs.map Prod.fst).Nodup) (f : String × Ty) (hfm : f ∈ fs)
    (v x : Value) (hv : UniqueKeys v) (hx : child v (.key f.1) = some x) (hp : deAt structs k f.2 x = .panic)
    (ho : ∀ g ∈ fs, g.1 ≠ f.1 → ∀ y, child v (.key g.1) = some y → ∃ d, deAt structs k g.2 y = .ok d) : deAt structs k (.struct fs) v = .panic := by
  obtain ⟨m, rfl⟩ : ∃ m, v = .map m := by
    cases v <;> simp [child] at hx
    exact ⟨_, rfl⟩
  have hmn := (uniqueKeys_map.1 hv).1
  rw [child_key_map] at hx
  rw [deAt, de, deStruct]
  have hfind : (fieldDecoders (refsAt structs k) fs).find? (fun fd => fd.name == f.1) =
      some ⟨f.1, de (refsAt structs k) f.2, missingField f.1 f.2⟩ := by
    rw [fieldDecoders_eq]
    clear ho
    induction fs with
    | nil => cases hfm
    | cons a r ih =>
      simp only [List.map_cons, List.nodup_cons] at hf
      rw [List.map_cons, List.find?_cons]
      rcases List.mem_cons.1 hfm with rfl | hg
      · simp
      · have : a.1 ≠ f.1 := fun e => hf.1 (by rw [e]; exact List.mem_map_of_mem (f := Prod.fst) hg)
        simp only [show (a.1 == f.1) = false by simpa using this]
        exact ih hf.2 hg
  have := structLoop_panics hfind hp m [] hmn (by simp [hmGet]) (hmGet_mem hx) ?_
  · rw [this]; rfl
  · intro e he hne g hg
    rw [fieldDecoders_eq] at hg
    obtain ⟨a, ha, rfl⟩ := List.mem_map.1 (List.mem_of_find?_eq_some hg)
    have hae : a.1 = e.1 := by simpa using List.find?_some hg
    exact ho a ha (by rw [hae]; exact hne) e.2 (by rw [child_key_map, hae]; exact hmGet_of_mem' hmn he)

theorem text_panic {structs : Nat → List (String × Ty)} {T : Ty} {s : String} {k : Nat} (h : deAt structs (k + 1) T (.string s) = .panic) : ExplosiveText T := by
  rw [deAt] at h
  have sc : ∀ {α : Type} {x : Except ModelError α} {f : α → Data},
      (Outcome.ofExcept x >>= fun a => Outcome.ok (f a)) ≠ .panic := by
    intro α x f h
    rw [bind_eq_panic] at h
    rcases h with h | ⟨_, _, h⟩
    · exact ofExcept_panic h
    · cases h
  induction T using Ty.ind with
  | enum => exact .enum
  | bytes => exact .bytes
  | option T ih =>
    simp only [de, bind_eq_panic, reduceCtorEq, and_false, exists_false, or_false] at h
    exact .option (ih h)
  | newtype T ih =>
    simp only [de, bind_eq_panic, reduceCtorEq, and_false, exists_false, or_false] at h
    exact .newtype (ih h)
  | int t =>
    rw [de, bind_eq_panic] at h
    rcases h with h | ⟨_, _, h⟩
    · exact absurd h (deInt_noPanic _ _)
    · cases h
  | value =>
    obtain ⟨w, hw⟩ := deValue_noPanic (.string s)
    rw [de, hw] at h; simp at h
  | ref n =>
    rw [de, refsAt] at h
    obtain ⟨m, e, -⟩ := struct_panic h
    cases e
  | struct fs =>
    obtain ⟨m, e, -⟩ := struct_panic h
    cases e
  | bool => rw [de] at h; exact absurd h sc
  | f32 => rw [de] at h; exact absurd h sc
  | f64 => rw [de] at h; exact absurd h sc
  | char => rw [de] at h; exact absurd h sc
  | string => rw [de] at h; exact absurd h sc
  | _ => simp [de] at h

theorem text_explodes {structs : Nat → List (String × Ty)} {T : Ty} (h : ExplosiveText T) (s : String) (k : Nat) : deAt structs k T (.string s) = .panic := by
  rw [deAt]
  induction h with
  | enum => rw [de]
  | bytes => rw [de]
  | option _ ih => rw [de, ih]; rfl; simp
  | newtype _ ih => rw [de, ih]; rfl

/-- **C139.** A configuration with an environment layer on top: as soon as a variable with a text lands on a field that is an enum or a byte buffer (perhaps
optional, perhaps in a newtype), reading the settings panics, whatever the text — unless another field is unreadable, which may be found first. -/
theorem C139_env (b : Build) (fm : Formats) (calls : List RegCall) (w : World) (skip : Bool) (v v' : Value)
    (h : (register b fm calls).buildValue w skip = .ok v) (hp : ∀ e ∈ firsts (offers b fm calls), Proper e.2)
    (name pre P : String) (hnew : ∀ a ∈ offers b fm calls, a.1 ≠ name) (hP : Trimmed pre P) (hne : P ≠ "")
    (h' : (register b fm (calls ++ [.environment name pre])).buildValue w skip = .ok v')
    (structs : Nat → List (String × Ty)) (k : Nat) (fs : List (String × Ty)) (hf : (fs.map Prod.fst).Nodup)
    (f : String × Ty) (hfm : f ∈ fs) (hT : ExplosiveText f.2) (s : String) (hs : EnvGives w.env P f.1 s)
    (ho : ∀ g ∈ fs, g.1 ≠ f.1 → ∀ y, child v' (.key g.1) = some y → ∃ d, deAt structs k g.2 y = .ok d) :
    deAt structs k (.struct fs) v' = .panic := by
  obtain ⟨mx, hx, hux, h1, -⟩ := env_entry (w := w) hP hne
  have hnx := (uniqueKeys_map.1 hux).1
  have hb := C14_add_last b fm calls (.environment name pre) w skip (name, Layer.newEnvironment pre) (.map mx) v rfl hnew hx h
  rw [h', Except.ok.injEq] at hb
  obtain ⟨hvm, hvu⟩ := C08_map b fm calls w skip v h
  obtain ⟨m, rfl⟩ : ∃ m, v = .map m := by
    rcases isMap_cases v with ⟨m, rfl⟩ | h
    · exact ⟨m, rfl⟩
    · rw [hvm] at h; cases h
  have hu : UniqueKeys v' := by rw [hb]; exact uniqueKeys_merge (hvu hp) hux
  refine C139_field structs k fs hf f hfm v' (.string s) hu ?_ (text_explodes hT s k) ho
  rw [hb, merge_map_map, child_key_map, hmGet_mergeEntries mx m hnx, h1 _ _ hs]
  cases hmGet m f.1 <;> simp [Value.isMap]

/-- **C139.** With the environment as the only layer: the settings can be made to panic by environment variables, exactly if a field some variable can land on is
an enum or a byte buffer, perhaps optional, perhaps in a newtype. No variable reaches into a nested struct or list. -/
theorem C139_env_only (b : Build) (fm : Formats) (w : World) (name pre P : String) (hP : Trimmed pre P) (hne : P ≠ "") (skip : Bool)
    (structs : Nat → List (String × Ty)) (fs : List (String × Ty)) (hf : (fs.map Prod.fst).Nodup) :
    (∃ env v, (register b fm [.environment name pre]).buildValue { w with env := env } skip = .ok v ∧ ∀ k, deAt structs k (.struct fs) v = .panic) ↔
      ∃ f ∈ fs, Reachable P f.1 ∧ ExplosiveText f.2 := by
  have built : ∀ env mx, (Layer.newEnvironment pre).readValue { w with env := env } = .ok (.map mx) →
      (register b fm [.environment name pre]).buildValue { w with env := env } skip = .ok (.map (mergeEntries [] mx)) := by
    intro env mx hx
    have := C14_add_last b fm [] (.environment name pre) { w with env := env } skip (name, Layer.newEnvironment pre) (.map mx) (.map []) rfl
      (by simp [offers]) hx rfl
    rwa [List.nil_append, merge_map_map] at this
  constructor
  · rintro ⟨env, v, hv, hk⟩
    obtain ⟨mx, hx, hux, h1, h2⟩ := env_entry (w := { w with env := env }) hP hne
    have hnx := (uniqueKeys_map.1 hux).1
    rw [built env mx hx] at hv
    cases hv
    have hp := hk 1
    rw [deAt] at hp
    obtain ⟨m, e, f, hfm, x, hx, hp⟩ := struct_panic_field hp
    cases e
    have hun : ((mergeEntries [] mx).map Prod.fst).Nodup := by
      have := uniqueKeys_merge (a := .map []) (b := .map mx) (uniqueKeys_map.2 ⟨by simp, by simp⟩) hux
      rw [merge_map_map] at this
      exact (uniqueKeys_map.1 this).1
    have hg := hmGet_of_mem' hun hx
    dsimp only at hg
    rw [hmGet_mergeEntries mx [] hnx] at hg
    by_cases he : ∃ s, EnvGives env P f.1 s
    · obtain ⟨s, hs⟩ := he
      rw [h1 _ _ hs] at hg
      have : x = .string s := by simpa [hmGet, Value.isMap] using hg.symm
      subst this
      obtain ⟨before, var, after, -, hl, -⟩ := hs
      exact ⟨f, hfm, (C122_reachable pre P hP hne f.1).1.1 ⟨var, hl⟩, text_panic (k := 0) hp⟩
    · rw [h2 _ fun s hs => he ⟨s, hs⟩] at hg
      simp [hmGet] at hg
  · rintro ⟨f, hfm, hr, hT⟩
    have hl := (C122_reachable pre P hP hne f.1).2 hr
    have hs : EnvGives [(os (P ++ f.1), os "")] P f.1 "" := ⟨[], _, [], rfl, hl _, rfl, by simp⟩
    obtain ⟨mx, hx, hux, h1, h2⟩ := env_entry (w := { w with env := [(os (P ++ f.1), os "")] }) hP hne
    have hnx := (uniqueKeys_map.1 hux).1
    refine ⟨_, _, built _ mx hx, fun k => ?_⟩
    refine C139_env b fm [] { w with env := [(os (P ++ f.1), os "")] } skip (.map []) _ rfl (by simp [offers, firsts]) name pre P (by simp [offers]) hP hne
      (built _ mx hx) structs k fs hf f hfm hT "" hs ?_
    intro g hg hne' y hy
    rw [child_key_map, hmGet_mergeEntries mx [] hnx, h2 g.1 ?_] at hy
    · simp [hmGet] at hy
    · rintro s ⟨before, var, after, e, hl', -⟩
      have : var = (os (P ++ f.1), os "") := by
        have hm : var ∈ [(os (P ++ f.1), os "")] := by
          rw [show [(os (P ++ f.1), os "")] = before ++ var :: after from e]; simp
        simpa using hm
      subst this
      exact hne' (lands_unique hne hl' (hl _))

/-! ## HasReading types -/

theorem tupleLoop_reads {refs : Nat → Decoder} {ts : List Ty} : ∀ {xs : List Value} {i : Nat} {acc ds : List Data},
    deTupleLoop i acc (decoders refs ts) xs = .ok ds → ∀ t ∈ ts, ∃ x ∈ xs, ∃ d, de refs t x = .ok d := by
  induction ts with
  | nil => intro xs i acc ds _ t ht; cases ht
  | cons t r ih =>
    intro xs i acc ds h s hs
    rw [decoders] at h
    cases xs with
    | nil => rw [deTupleLoop] at h; cases h
    | cons x xr =>
      rw [deTupleLoop, bind_eq_ok] at h
      obtain ⟨d, hd, h⟩ := h
      rcases List.mem_cons.1 hs with rfl | hs
      · exact ⟨x, by simp, d, hd⟩
      · obtain ⟨y, hy, h2⟩ := ih h s hs
        exact ⟨y, by simp [hy], h2⟩

theorem struct_reads {structs : Nat → List (String × Ty)} {K : Nat} {fs : List (String × Ty)} (hf : (fs.map Prod.fst).Nodup) {v : Value} (hv : UniqueKeys v) {d : Data}
    (h : de (refsAt structs K) (.struct fs) v = .ok d) : ∀ f ∈ fs, (∃ T, f.2 = .option T) ∨ ∃ x dx, UniqueKeys x ∧ de (refsAt structs K) f.2 x = .ok dx := by
  obtain ⟨m, rfl⟩ : ∃ m, v = .map m := by
    rcases isMap_cases v with ⟨m, rfl⟩ | hm
    · exact ⟨m, rfl⟩
    · have := C39_nonmap structs K fs v hm
      rw [deAt, h] at this; cases this
  obtain ⟨hmn, hmu⟩ := uniqueKeys_map.1 hv
  rw [de_struct_ok _ fs hf _ hmn] at h
  obtain ⟨ds, -, hds⟩ := h
  intro f hfm
  obtain ⟨nd, -, -, hnd⟩ := forall2_left hds f hfm
  cases hg : hmGet m f.1 with
  | some x => rw [hg] at hnd; exact Or.inr ⟨x, _, hmu _ (hmGet_mem hg), hnd⟩
  | none =>
    rw [hg] at hnd
    left
    revert hnd
    cases f.2 <;> simp [missingField]

theorem fillable_of {structs : Nat → List (String × Ty)} {K : Nat}
    (hr : ∀ n x d, UniqueKeys x → refsAt structs K n x = .ok d → Fillable structs (.ref n)) (T : Ty) (hw : WellFormed T) :
    ∀ v d, UniqueKeys v → de (refsAt structs K) T v = .ok d → Fillable structs T := by
  induction hw with
  | bool => intro v d hu h; exact .bool
  | int t =>
    intro v d hu h
    refine .int ?_ ?_ <;> rintro rfl <;> simp [de, deInt] at h
  | f32 => intro v d hu h; exact .f32
  | f64 => intro v d hu h; exact .f64
  | char => intro v d hu h; exact .char
  | string => intro v d hu h; exact .string
  | unit => intro v d hu h; exact .unit
  | unitStruct => intro v d hu h; exact .unitStruct
  | value => intro v d hu h; exact .value
  | bytes => intro v d hu h; rw [de] at h; cases h
  | enum => intro v d hu h; rw [de] at h; cases h
  | @option T _ _ => intro v d hu h; exact .option T
  | @newtype T _ ih =>
    intro v d hu h
    simp only [de, bind_eq_ok] at h
    obtain ⟨d', h', -⟩ := h
    exact .newtype (ih v d' hu h')
  | @seq T _ _ => intro v d hu h; exact .seq T
  | @map kt T _ _ => intro v d hu h; exact .map kt T
  | @tuple ts _ ih =>
    intro v d hu h
    cases v <;> simp only [de, bind_eq_ok, reduceCtorEq] at h
    rename_i xs
    obtain ⟨ds, h, -⟩ := h
    refine .tuple fun T hT => ?_
    obtain ⟨x, hx, d, hd⟩ := tupleLoop_reads h T hT
    exact ih T hT x d (uniqueKeys_array.1 hu x hx) hd
  | @tupleStruct ts _ ih =>
    intro v d hu h
    cases v <;> simp only [de, bind_eq_ok, reduceCtorEq] at h
    rename_i xs
    obtain ⟨ds, h, -⟩ := h
    refine .tupleStruct fun T hT => ?_
    obtain ⟨x, hx, d, hd⟩ := tupleLoop_reads h T hT
    exact ih T hT x d (uniqueKeys_array.1 hu x hx) hd
  | @struct fs hn _ ih =>
    intro v d hu h
    refine .struct fun f hf => ?_
    have hr' := struct_reads hn hu h f hf
    have hwf := ih f hf
    obtain ⟨name, T⟩ := f
    rcases hr' with ⟨S, hS⟩ | ⟨x, dx, hx, hd⟩
    · dsimp only at hS ⊢; rw [hS]; exact .option S
    · exact hwf x dx hx hd
  | ref n => intro v d hu h; rw [de] at h; exact hr n v d hu h

theorem fillable_refs {structs : Nat → List (String × Ty)} (hs : ∀ n, WellFormed (.struct (structs n))) : ∀ k n v d, UniqueKeys v → refsAt structs k n v = .ok d →
    Fillable structs (.ref n) := by
  intro k
  induction k with
  | zero => intro n v d _ h; cases h
  | succ k ih =>
    intro n v d hu h
    rw [refsAt] at h
    exact .ref (fillable_of ih _ (hs n) v d hu h)

theorem reads_more {structs : Nat → List (String × Ty)} {T : Ty} {v : Value} {k j : Nat} {d : Data} (h : deAt structs k T v = .ok d) (hj : k ≤ j) :
    deAt structs j T v = .ok d := by rw [C38_stack structs T v k j (by rw [h]; simp) hj, h]

theorem fill_list {structs : Nat → List (String × Ty)} : ∀ (ts : List Ty), (∀ T ∈ ts, HasReading structs T) →
    ∃ xs k, (∀ x ∈ xs, UniqueKeys x) ∧ List.Forall₂ (fun T x => ∃ d, deAt structs k T x = .ok d) ts xs := by
  intro ts
  induction ts with
  | nil => intro _; exact ⟨[], 0, by simp, .nil⟩
  | cons T r ih =>
    intro h
    obtain ⟨xs, k, h1, h2⟩ := ih fun S hS => h S (by simp [hS])
    obtain ⟨x, j, d, hx, hd⟩ := h T (by simp)
    refine ⟨x :: xs, max j k, ?_, .cons ⟨d, reads_more hd (le_max_left _ _)⟩ (h2.imp fun _ _ ⟨d, hd⟩ => ⟨d, reads_more hd (le_max_right _ _)⟩)⟩
    intro y hy
    rcases List.mem_cons.1 hy with rfl | hy
    · exact hx
    · exact h1 y hy

theorem tupleLoop_fill {structs : Nat → List (String × Ty)} {k : Nat} {ts : List Ty} {xs : List Value}
    (h : List.Forall₂ (fun T x => ∃ d, deAt structs k T x = .ok d) ts xs) : ∀ i acc, ∃ ds, deTupleLoop i acc (decoders (refsAt structs k) ts) xs = .ok ds := by
  induction h with
  | nil => intro i acc; exact ⟨acc, by rw [decoders, deTupleLoop]⟩
  | cons h _ ih =>
    intro i acc
    obtain ⟨d, hd⟩ := h
    rw [deAt] at hd
    rw [decoders, deTupleLoop, hd, Outcome.bind_ok]
    exact ih _ _

theorem struct_fill {structs : Nat → List (String × Ty)} {fs : List (String × Ty)} (hf : (fs.map Prod.fst).Nodup) (h : ∀ f ∈ fs, HasReading structs f.2) :
    HasReading structs (.struct fs) := by
  obtain ⟨xs, k, h1, h2⟩ := fill_list (fs.map Prod.snd) (by
    intro T hT
    obtain ⟨f, hf, rfl⟩ := List.mem_map.1 hT
    exact h f hf)
  rw [List.forall₂_map_left_iff] at h2
  have hkeys : ∀ (fs : List (String × Ty)) (xs : List Value), List.Forall₂ (fun f x => ∃ d, deAt structs k (Prod.snd f) x = .ok d) fs xs →
      ((fs.map Prod.fst).zip xs).map Prod.fst = fs.map Prod.fst := by
    intro fs xs h
    rw [List.map_fst_zip]
    rw [List.length_map, h.length_eq]
  have hmn : (((fs.map Prod.fst).zip xs).map Prod.fst).Nodup := by rw [hkeys fs xs h2]; exact hf
  have hu : UniqueKeys (.map ((fs.map Prod.fst).zip xs)) := uniqueKeys_map.2 ⟨hmn, fun e he => h1 _ (List.of_mem_zip he).2⟩
  have hex : ∀ (gs : List (String × Ty)), (∀ g ∈ gs, g ∈ fs) → ∃ ds, List.Forall₂ (fun f (nd : String × Data) => nd.1 = f.1 ∧
      (match hmGet ((fs.map Prod.fst).zip xs) f.1 with | some v => de (refsAt structs k) f.2 v | none => missingField f.1 f.2) = .ok nd.2) gs ds := by
    intro gs
    induction gs with
    | nil => intro _; exact ⟨[], .nil⟩
    | cons g r ih =>
      intro hg
      obtain ⟨ds, hds⟩ := ih fun x hx => hg x (by simp [hx])
      have hgm := hg g (by simp)
      obtain ⟨i, hi, rfl⟩ := List.getElem_of_mem hgm
      have hix : i < xs.length := by rw [← h2.length_eq]; exact hi
      obtain ⟨d, hd⟩ := (List.forall₂_iff_get.1 h2).2 i hi hix
      have hmem : ((fs[i]).1, xs[i]) ∈ (fs.map Prod.fst).zip xs := by
        rw [List.mem_iff_getElem]
        exact ⟨i, by simp [hi, hix], by simp⟩
      refine ⟨((fs[i]).1, d) :: ds, .cons ⟨rfl, ?_⟩ hds⟩
      rw [hmGet_of_mem' hmn hmem]
      exact hd
  obtain ⟨ds, hds⟩ := hex fs fun _ h => h
  exact ⟨_, k, .struct ds, hu, by rw [deAt, de_struct_ok _ fs hf _ hmn]; exact ⟨ds, rfl, hds⟩⟩

theorem readable_of {structs : Nat → List (String × Ty)} (hs : ∀ n, WellFormed (.struct (structs n))) {T : Ty} (h : Fillable structs T) (hw : WellFormed T) :
    HasReading structs T := by
  have none : UniqueKeys .none := by simp [UniqueKeys]
  induction h with
  | bool => exact ⟨.boolean true, 0, _, by simp [UniqueKeys], rfl⟩
  | @int t h1 h2 =>
    cases t <;> first | exact absurd rfl h1 | exact absurd rfl h2 | exact ⟨.string "0", 0, _, by simp [UniqueKeys], rfl⟩
  | f32 => exact ⟨.string "inf", 0, _, by simp [UniqueKeys], rfl⟩
  | f64 => exact ⟨.string "inf", 0, _, by simp [UniqueKeys], rfl⟩
  | char => exact ⟨.string "a", 0, _, by simp [UniqueKeys], rfl⟩
  | string => exact ⟨.string "a", 0, _, by simp [UniqueKeys], rfl⟩
  | unit => exact ⟨.none, 0, _, none, rfl⟩
  | unitStruct => exact ⟨.none, 0, _, none, rfl⟩
  | value => exact ⟨.none, 0, _, none, rfl⟩
  | option T => exact ⟨.none, 0, _, none, rfl⟩
  | seq T => exact ⟨.array [], 0, _, uniqueKeys_array.2 (by simp), rfl⟩
  | map kt T => exact ⟨.map [], 0, _, uniqueKeys_map.2 ⟨by simp, by simp⟩, rfl⟩
  | newtype _ ih =>
    cases hw with | newtype hw =>
    obtain ⟨v, k, d, hu, hd⟩ := ih hw
    refine ⟨v, k, .newtypeStruct d, hu, ?_⟩
    rw [deAt] at hd ⊢
    rw [de, hd]; rfl
  | tuple _ ih =>
    cases hw with | tuple hw =>
    obtain ⟨xs, k, h1, h2⟩ := fill_list _ fun T hT => ih T hT (hw T hT)
    obtain ⟨ds, hd⟩ := tupleLoop_fill h2 0 []
    exact ⟨.array xs, k, .tuple ds, uniqueKeys_array.2 h1, by simp only [deAt, de, hd]; rfl⟩
  | tupleStruct _ ih =>
    cases hw with | tupleStruct hw =>
    obtain ⟨xs, k, h1, h2⟩ := fill_list _ fun T hT => ih T hT (hw T hT)
    obtain ⟨ds, hd⟩ := tupleLoop_fill h2 0 []
    exact ⟨.array xs, k, .tupleStruct ds, uniqueKeys_array.2 h1, by simp only [deAt, de, hd]; rfl⟩
  | struct _ ih =>
    cases hw with | struct hn hw =>
    exact struct_fill hn fun f hf => ih f hf (hw f hf)
  | @ref n _ ih =>
    obtain ⟨v, k, d, hu, hd⟩ := ih (hs n)
    exact ⟨v, k + 1, d, hu, by rw [deAt, de, refsAt]; exact hd⟩

/-- **C139.** The types some value can be read as: exactly those that need no 128-bit integer, no enum, no byte buffer and no struct inside itself. A program with any
other settings type never gets its settings, whatever is configured. -/
theorem C139_readable (structs : Nat → List (String × Ty)) (hs : ∀ n, WellFormed (.struct (structs n))) (T : Ty) (hw : WellFormed T) :
    HasReading structs T ↔ Fillable structs T :=
  ⟨fun ⟨v, k, d, hu, hd⟩ => fillable_of (fillable_refs hs k) T hw v d hu hd, fun h => readable_of hs h hw⟩

/-- Types in which no enum and no byte buffer is written cannot be crashed. -/
theorem noEnum_not_explosive {structs : Nat → List (String × Ty)} (hs : ∀ n, NoEnumNoBytes (.struct (structs n))) {T : Ty} (h : Explosive structs T) :
    ¬ NoEnumNoBytes T := by
  induction h with
  | enum => exact fun h => nomatch h
  | bytes => exact fun h => nomatch h
  | option _ ih => intro h; cases h with | option h => exact ih h
  | newtype _ ih => intro h; cases h with | newtype h => exact ih h
  | seq _ ih => intro h; cases h with | seq h => exact ih h
  | map _ _ _ ih => intro h; cases h with | map h => exact ih h
  | tuple _ _ ih => intro h; cases h with | tuple h => exact ih (h _ (by simp))
  | tupleStruct _ _ ih => intro h; cases h with | tupleStruct h => exact ih (h _ (by simp))
  | struct hm _ ih => intro h; cases h with | struct h => exact ih (h _ hm)
  | ref _ ih => exact fun _ => ih (hs _)

/-! ## Cases -/

def exNoStructs : Nat → List (String × Ty) := fun _ => []
theorem exNoStructs_wf : ∀ n, WellFormed (.struct (exNoStructs n)) := fun _ => .struct (by simp [exNoStructs]) (by simp [exNoStructs])

/-- A pair of a 128-bit integer and an enum is safe: the integer cannot be read, so nothing comes to the enum. -/
theorem exPair_safe : ¬ Explosive exNoStructs (.tuple [.int .i128, .enum]) := by
  have hn : ¬ HasReading exNoStructs (.int .i128) := by
    rw [C139_readable exNoStructs exNoStructs_wf _ (.int _)]
    intro h
    cases h with | int h1 _ => exact h1 rfl
  generalize hts : [Ty.int .i128, .enum] = ts
  intro h
  cases h with
  | @tuple before after T hb he =>
    cases before with
    | nil =>
      cases hts
      cases he
    | cons B r =>
      rw [List.cons_append] at hts
      injection hts with hB _
      exact hn (hB ▸ hb B (by simp))

example (v : Value) (hv : UniqueKeys v) : ∃ k, deAt exNoStructs k (.tuple [.int .i128, .enum]) v ≠ .panic := by
  obtain ⟨k, hk⟩ := C38_depth_exists v hv
  exact ⟨k, C139_safe _ _ exPair_safe v hv k hk⟩

/-- The other way round it is not: `["x"]` crashes it. -/
example : Explosive exNoStructs (.tuple [.enum, .int .i128]) ∧ ∀ k, deAt exNoStructs k (.tuple [.enum, .int .i128]) (.array [.string "x"]) = .panic :=
  ⟨.tuple (before := []) (by simp) .enum, fun _ => rfl⟩

/-- A list of maps of enums. -/
example : ∃ v, UniqueKeys v ∧ ∀ k, deAt exNoStructs k (.seq (.map .string .enum)) v = .panic :=
  (C139_type exNoStructs exNoStructs_wf _ (.seq (.map .enum))).2 (.seq (.map (by decide) (by decide) .enum))

/-- A struct that needs itself is readable from nothing. -/
example : ¬ HasReading (fun _ => [("next", .ref 0)]) (.ref 0) := by
  rw [C139_readable _ (fun _ => .struct (by simp) (by simp; exact .ref 0)) _ (.ref 0)]
  intro h
  have : ∀ T, Fillable (fun _ => [("next", .ref 0)]) T → T ≠ .ref 0 ∧ T ≠ .struct [("next", .ref 0)] := by
    intro T h
    induction h with
    | ref _ ih => exact absurd rfl ih.2
    | struct _ ih =>
      refine ⟨by simp, ?_⟩
      rintro e
      cases e
      exact (ih ("next", .ref 0) (by simp)).1 rfl
    | _ => simp
  exact (this _ h).1 rfl

/-- One with an optional itself is. -/
example : HasReading (fun _ => [("next", .option (.ref 0))]) (.ref 0) :=
  (C139_readable _ (fun _ => .struct (by simp) (by simp; exact .option (.ref 0))) _ (.ref 0)).2 (.ref (.struct (by simp; exact .option _)))

/-- A program whose settings have no enum starts and reads without a panic in any world. -/
example : ∃ c w', createConfig exB1 exFormats exFresh exArgs = .ok (c, w') ∧
    ∀ u : World, ∃ v, c.buildValue u true = .ok v ∧ ∃ k, ∀ j, k ≤ j → deAt exNoStructs j (.struct [("a", .int .u8), ("b", .seq .string)]) v ≠ .panic :=
  C139_start exB1 exFormats exFresh exArgs (by intro e he; simp [exArgs] at he; subst he; simp [UniqueKeys]) exNoStructs _ fun h =>
    noEnum_not_explosive (fun _ => .struct (by simp [exNoStructs])) h (.struct (by
      intro f hf
      simp only [List.mem_cons, List.not_mem_nil, or_false] at hf
      rcases hf with rfl | rfl
      · exact .int _
      · exact .seq .string))

/-- Settings with a mode (an enum) in a section: a file can crash them, in every format that can spell the map. -/
example : ∃ m, UniqueKeys (.map m) ∧ ∀ (b : Build) (fm : Formats) (name : String) (p : OsStr) (cd : Codec) (w : World) (skip : Bool) (text : String) (doc : Doc)
      (writeErr : Option Nat), FormatOf b fm p cd → w.disk (w.locate p) = .file (utf8 text) none writeErr → cd.parse text = .ok doc → visit doc = .ok (.map m) →
      ∃ v, (register b fm [.file name p]).buildValue w skip = .ok v ∧ ∀ k, deAt exNoStructs k (.struct [("ui", .struct [("mode", .enum)])]) v = .panic :=
  C139_file exNoStructs exNoStructs_wf [("ui", .struct [("mode", .enum)])]
    (.struct (by simp) (by intro f hf; rw [List.mem_singleton] at hf; subst hf; exact .struct (by simp) (by intro f hf; rw [List.mem_singleton] at hf; subst hf; exact .enum)))
    (.struct (name := "ui") (T := .struct [("mode", .enum)]) (by simp) (.struct (name := "mode") (T := .enum) (by simp) .enum))

/-- The size can be read, the mode cannot. -/
example (k : Nat) : deAt exNoStructs k (.struct [("mode", .enum), ("size", .int .u8), ("name", .string)]) (.map [("size", .string "7"), ("mode", .string "x")]) = .panic := by
  refine C139_field exNoStructs k _ (by decide) ("mode", .enum) (by simp) _ (.string "x") (by simp [UniqueKeys, UniqueKeysMap, UniqueKeysEntry]) rfl rfl ?_
  intro g hg hne y hy
  simp only [List.mem_cons, List.not_mem_nil, or_false] at hg
  rcases hg with rfl | rfl | rfl
  · exact absurd rfl hne
  · cases hy; exact ⟨_, rfl⟩
  · cases hy

/-- `APP_name=` crashes a program for which the name is an optional enum, although its defaults are fine. -/
example (v' : Value) (h' : (register exB1 exFormats (exEnvCalls ++ [.environment "env" " APP_"])).buildValue exEnvWorld false = .ok v') :
    deAt exNoStructs 0 (.struct [("port", .int .u16), ("name", .option .enum)]) v' = .panic := by
  have hg : EnvGives exEnvWorld.env "APP_" "name" "" := ⟨[_], _, [], rfl, exEnv_name, rfl, by simp⟩
  refine C139_env exB1 exFormats exEnvCalls exEnvWorld false _ v' rfl exEnv_proper "env" " APP_" "APP_" (by decide) exEnv_prefix (by decide) h'
    exNoStructs 0 _ (by decide) ("name", .option .enum) (by simp) (.option .enum) "" hg ?_
  intro g hgm hne y hy
  simp only [List.mem_cons, List.not_mem_nil, or_false] at hgm
  rcases hgm with rfl | rfl
  · obtain ⟨mx, hx, hux, h1, -⟩ := env_entry (w := exEnvWorld) exEnv_prefix (by decide)
    have hb := C14_add_last exB1 exFormats exEnvCalls (.environment "env" " APP_") exEnvWorld false ("env", Layer.newEnvironment " APP_") (.map mx) _ rfl (by decide) hx rfl
    rw [h', Except.ok.injEq] at hb
    have hp : EnvGives exEnvWorld.env "APP_" "port" "8080" := by
      refine ⟨[], _, _, rfl, exEnv_port, rfl, ?_⟩
      intro a ha hl
      cases List.mem_singleton.1 ha
      exact absurd (lands_unique (by decide) hl.1 exEnv_name) (by decide)
    have hy' : y = .string "8080" := by
      have hn : (Value.newMap.merge (.map [("port", .integer ⟨80, by decide⟩), ("name", .string "a"), ("ui", .map [("dark", .boolean true)])])).isMap = true := rfl
      rw [hb] at hy
      obtain ⟨m, hm⟩ : ∃ m, Value.newMap.merge (.map [("port", .integer ⟨80, by decide⟩), ("name", .string "a"), ("ui", .map [("dark", .boolean true)])]) = .map m := by
        rcases isMap_cases (Value.newMap.merge (.map [("port", .integer ⟨80, by decide⟩), ("name", .string "a"), ("ui", .map [("dark", .boolean true)])])) with h | h
        · exact h
        · rw [hn] at h; cases h
      rw [hm] at hy
      rw [merge_map_map, child_key_map, hmGet_mergeEntries mx _ (uniqueKeys_map.1 hux).1, h1 _ _ hp] at hy
      cases hg : hmGet m "port" <;> simp [hg, Value.isMap] at hy <;> exact hy.symm
    subst hy'
    exact ⟨.int .u16 ⟨8080, by decide⟩, rfl⟩
  · exact absurd rfl hne

/-- A mode at the top can be hit by a variable; one in a section cannot. -/
example (w : World) :
    (∃ env v, (register exB1 exFormats [.environment "env" " APP_"]).buildValue { w with env := env } false = .ok v ∧
      ∀ k, deAt exNoStructs k (.struct [("mode", .newtype .enum)]) v = .panic) ∧
    ¬ ∃ env v, (register exB1 exFormats [.environment "env" " APP_"]).buildValue { w with env := env } false = .ok v ∧
      ∀ k, deAt exNoStructs k (.struct [("ui", .struct [("mode", .enum)])]) v = .panic := by
  rw [C139_env_only exB1 exFormats w "env" " APP_" "APP_" exEnv_prefix (by decide) false exNoStructs _ (by simp),
    C139_env_only exB1 exFormats w "env" " APP_" "APP_" exEnv_prefix (by decide) false exNoStructs _ (by simp)]
  refine ⟨⟨("mode", .newtype .enum), by simp, ⟨by decide, by decide⟩, .newtype .enum⟩, ?_⟩
  rintro ⟨f, hf, -, h⟩
  simp only [List.mem_cons, List.not_mem_nil, or_false] at hf
  subst hf
  cases h

end Verif.Props
