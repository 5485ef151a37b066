import Verif.Model.Examples
import Verif.Props.EndToEnd
/-! # C95: what a layer holds is there, whatever the other layers say -/
namespace Verif.Props
open Spec

/-- A map that speaks about a path and has nothing there has something other than a map on the way. -/
theorem speaks_nothing (q : List String) : ∀ x : Value, x.isMap = true → ¬ Silent x (keys q) → view x (keys q) = none →
    ∃ q' h, q' <+: q ∧ q' ≠ q ∧ view x (keys q') = some h ∧ h ≠ .map := by
  induction q with
  | nil => intro x _ _ hv; simp [keys, view] at hv
  | cons k r ih =>
    intro x hm hs hv
    have hx : view x [] = some .map := by
      cases x <;> first | rfl | cases hm
    cases hc : child x (.key k) with
    | none =>
      refine (hs ⟨[], k, keys r, rfl, ?_, ?_⟩).elim
      · intro q' hq'
        rw [List.prefix_nil.1 hq']; exact hx
      · simp [view, hc]
    | some y =>
      have step : ∀ p, view x (Step.key k :: p) = view y p := fun p => by simp [view, hc]
      cases hy : y.isMap with
      | false =>
        refine ⟨[k], head y, by simp, ?_, ?_, ?_⟩
        · rintro e
          cases e
          simp [keys, view, hc] at hv
        · simp [keys, view, hc]
        · intro e
          cases y <;> simp [Value.isMap, head] at e hy
      | true =>
        have hs' : ¬ Silent y (keys r) := by
          rintro ⟨a, j, t, e, h1, h2⟩
          refine hs ⟨Step.key k :: a, j, t, by simp [keys] at e ⊢; exact e, ?_, ?_⟩
          · intro q' hq'
            cases q' with
            | nil => exact hx
            | cons s q' =>
              obtain ⟨rfl, h3⟩ := List.cons_prefix_cons.1 hq'
              rw [step]; exact h1 q' h3
          · rw [List.cons_append, step]; exact h2
        have hv' : view y (keys r) = none := by
          rw [← step]; exact hv
        obtain ⟨q', h, g1, g2, g3, g4⟩ := ih y hy hs' hv'
        refine ⟨k :: q', h, List.cons_prefix_cons.2 ⟨rfl, g1⟩, fun e => g2 (List.cons.inj e).2, ?_, g4⟩
        have : keys (k :: q') = Step.key k :: keys q' := rfl
        rw [this, step]; exact g3

/-- What is there is not passed over in silence. -/
theorem not_silent_of_view {x : Value} {p : Path} (h : view x p ≠ none) : ¬ Silent x p := by
  rintro ⟨q, k, r, rfl, -, h2⟩
  apply h
  have : ∀ (q : Path) (x : Value) (a b : Path), view x q = none → a = q ++ b → view x a = none := by
    intro q
    induction q with
    | nil => intro x a b hv _; simp [view] at hv
    | cons s q ih =>
      intro x a b hv e
      subst e
      rw [List.cons_append, view]
      rw [view] at hv
      cases hc : child x s with
      | none => rfl
      | some y =>
        rw [hc] at hv
        exact ih y _ b hv rfl
  exact this _ x _ r h2 (by simp)

/-- **C95.** What a layer holds at the key path `q` is still something in the built value: the layers after it can replace it, but not
remove it, unless one of them has something other than a map at a path that leads to `q`. -/
theorem C95_floor (b : Build) (fm : Formats) (calls : List RegCall) (w : World) (skip : Bool) (v : Value)
    (h : (register b fm calls).buildValue w skip = .ok v) (hp : ∀ e ∈ firsts (offers b fm calls), Proper e.2)
    (before : List (String × Layer)) (e : String × Layer) (after : List (String × Layer)) (x : Value)
    (hls : firsts (offers b fm calls) = before ++ e :: after) (hx : e.2.readValue w = .ok x) (hm : x.isMap = true)
    (q : List String) (hq : view x (keys q) ≠ none)
    (hafter : ∀ a ∈ after, ∀ y, a.2.readValue w = .ok y → y.isMap = true → ∀ q' h, q' <+: q → q' ≠ q → view y (keys q') = some h →
      h = .map) :
    view v (keys q) ≠ none := by
  have hspeak : Speaks w e.2 (keys q) := ⟨x, hx, hm, not_silent_of_view hq⟩
  rcases C07_cases w (e :: after) (keys q) with hno | ⟨pre, e', post, x', hsplit, g1, g2, g3, g4⟩
  · exact (hno e (by simp) hspeak).elim
  · rw [C07_last_speaker b fm calls w skip v h hp (keys q) (before ++ pre) e' post x' (by rw [hls, hsplit]; simp) g1 g2 g3 g4]
    intro hnone
    obtain ⟨q', hd, k1, k2, k3, k4⟩ := speaks_nothing q x' g2 g3 hnone
    cases pre with
    | nil =>
      simp only [List.nil_append, List.cons.injEq] at hsplit
      obtain ⟨rfl, rfl⟩ := hsplit
      rw [hx] at g1; cases g1
      exact hq hnone
    | cons a pre =>
      simp only [List.cons_append, List.cons.injEq] at hsplit
      exact k4 (hafter e' (by rw [hsplit.2]; simp) x' g1 g2 q' hd k1 k2 k3)

/-- **C95.** So a key that any layer has is in the built value. -/
theorem C95_key_kept (b : Build) (fm : Formats) (calls : List RegCall) (w : World) (skip : Bool) (v : Value)
    (h : (register b fm calls).buildValue w skip = .ok v) (hp : ∀ e ∈ firsts (offers b fm calls), Proper e.2)
    (e : String × Layer) (he : e ∈ firsts (offers b fm calls)) (x : Value) (hx : e.2.readValue w = .ok x) (k : String) (hk : HasKey x k) :
    HasKey v k := by
  obtain ⟨before, after, hls⟩ := List.append_of_mem he
  have hm : x.isMap = true := by
    cases x <;> first | rfl | (exfalso; exact hk rfl)
  refine C95_floor b fm calls w skip v h hp before e after x hls hx hm [k] hk ?_
  intro a _ y _ hym q' hd h1 h2 h3
  have : q' = [] := by
    rcases q' with _ | ⟨j, r⟩
    · rfl
    · obtain ⟨rfl, h4⟩ := List.cons_prefix_cons.1 h1
      rw [List.prefix_nil.1 h4] at h2
      exact (h2 rfl).elim
  subst this
  cases y <;> first | (cases h3; rfl) | cases hym

/-- The registrations `create_config!` makes are of built-in layers with proper values. -/
theorem macro_proper {b : Build} {fm : Formats} {dv : Value} {files : List (LayerSpec × OsStr)} {env : Option String} (hu : UniqueKeys dv) :
    ∀ e ∈ firsts (offers b fm ([.memory "default" dv] ++ files.map (fun x => .file x.1.name x.2) ++
          (env.map fun pre => .environment "environment" pre).toList)), Proper e.2 := by
  intro e he
  obtain ⟨c, hc, ho⟩ := List.mem_filterMap.1 (mem_firsts he)
  have hmem : ∀ n v, c = .memory n v → UniqueKeys v := by
    rintro n v rfl
    simp only [List.mem_append, List.mem_singleton, List.mem_map, Option.mem_toList] at hc
    rcases hc with (h | ⟨x, _, h⟩) | h
    · cases h; exact hu
    · cases h
    · cases env <;> simp at h
  refine C08_builtin_proper b fm c e ?_ hmem ho
  simp only [List.mem_append, List.mem_singleton, List.mem_map, Option.mem_toList] at hc
  rcases hc with (rfl | ⟨x, _, rfl⟩) | h
  · trivial
  · trivial
  · cases env with
    | none => simp at h
    | some pre => simp at h; subst h; trivial

/-- **C95.** The defaults of `create_config!` are a floor: it returns a configuration, in whatever world; and whenever and wherever this
configuration is built — files and environment may have changed by then — every key of the defaults is there, and what the defaults have at
a key path is still something, unless a file or a variable puts something other than a map on the way. With `skip_on_error = true` building
never fails. -/
theorem C95_defaults (b : Build) (fm : Formats) (w : World) (args : MacroArgs) (hd : ∀ e ∈ args.default, UniqueKeys e.2) :
    ∃ c w' dv, createConfig b fm w args = .ok (c, w') ∧ valueMapMacro args.default = some dv ∧
      (∀ w2, ∃ v, c.buildValue w2 true = .ok v) ∧
      ∀ w2 skip v, c.buildValue w2 skip = .ok v → v.isMap = true ∧ UniqueKeys v ∧ (∀ e ∈ args.default, HasKey v e.1) ∧
        ∀ q, view dv (keys q) ≠ none →
          (∀ n l, n ≠ "default" → c.getLayer n = some l → ∀ y, l.readValue w2 = .ok y → y.isMap = true →
            ∀ q' h, q' <+: q → q' ≠ q → view y (keys q') = some h → h = .map) →
          view v (keys q) ≠ none := by
  obtain ⟨c, w', dv, h1, h2, files, h3, -⟩ := C60_order b fm w args
  obtain ⟨dv', g1, g2, g3, -⟩ := C19_value_map args.default
  rw [h2] at g1; cases g1
  have hu : UniqueKeys dv := (C22_macros args.default hd [] (by simp)).1 dv h2
  have hp := macro_proper (b := b) (fm := fm) (files := files) (env := args.env) hu
  rw [List.append_assoc] at h3 hp
  obtain ⟨more, m1, m2⟩ := C60_default_first b fm dv (files.map (fun x => RegCall.file x.1.name x.2) ++
    (args.env.map fun pre => RegCall.environment "environment" pre).toList)
  refine ⟨c, w', dv, h1, h2, fun w2 => ?_, fun w2 skip v hv => ?_⟩
  · rw [h3]; exact (C09_skip b fm _ w2).imp fun v hv => hv.1
  · rw [h3] at hv
    refine ⟨(C08_map b fm _ w2 skip v hv).1, (C08_map b fm _ w2 skip v hv).2 hp, ?_, ?_⟩
    · intro e he
      refine C95_key_kept b fm _ w2 skip v hv hp ("default", .memory dv) (by rw [m1]; simp) dv rfl e.1 ?_
      exact (g3 e.1).2 (List.mem_map_of_mem he)
    · intro q hq hafter
      refine C95_floor b fm _ w2 skip v hv hp [] ("default", .memory dv) more dv m1 rfl g2 q hq ?_
      intro a ha y hy
      have hne : a.1 ≠ "default" := by
        rw [m2] at ha
        simpa using (List.mem_filter.1 ha).2
      refine hafter a.1 a.2 hne ?_ y hy
      rw [h3, Config.getLayer, (is_register b fm _).1]
      exact hmGet_of_mem (is_register b fm _).2.2 (by rw [m1]; exact List.mem_cons_of_mem _ ha)

/-! ## Typed reading -/

/-- Where reading the fields of a struct goes wrong, a field that is there goes wrong in the same way. -/
theorem deStructLoop_bad (fds : List FieldDec) (m : Entries) : ∀ acc : List (String × Data), (m.map Prod.fst).Nodup →
    (∀ k ∈ m.map Prod.fst, hmGet acc k = none) →
    (∀ e, deStructLoop fds acc m = .err e → ∃ fd ∈ fds, ∃ v, (fd.name, v) ∈ m ∧ fd.dec v = .err e) ∧
    (deStructLoop fds acc m = .panic → ∃ fd ∈ fds, ∃ v, (fd.name, v) ∈ m ∧ fd.dec v = .panic) := by
  induction m with
  | nil => intro acc _ _; simp [deStructLoop]
  | cons x m ih =>
    obtain ⟨k, v⟩ := x
    intro acc hn hacc
    rw [deStructLoop, string_self, Outcome.bind_ok]
    rw [List.map_cons, List.nodup_cons] at hn
    have more : ∀ acc', (∀ j ∈ m.map Prod.fst, hmGet acc' j = none) →
        (∀ e, deStructLoop fds acc' m = .err e → ∃ fd ∈ fds, ∃ u, (fd.name, u) ∈ (k, v) :: m ∧ fd.dec u = .err e) ∧
        (deStructLoop fds acc' m = .panic → ∃ fd ∈ fds, ∃ u, (fd.name, u) ∈ (k, v) :: m ∧ fd.dec u = .panic) := by
      intro acc' ha
      obtain ⟨h1, h2⟩ := ih acc' hn.2 ha
      exact ⟨fun e he => let ⟨fd, a, u, c, d⟩ := h1 e he; ⟨fd, a, u, List.mem_cons_of_mem _ c, d⟩,
        fun he => let ⟨fd, a, u, c, d⟩ := h2 he; ⟨fd, a, u, List.mem_cons_of_mem _ c, d⟩⟩
    cases hf : fds.find? (fun fd => fd.name == k) with
    | none =>
      simp only [deIgnored_ok, Outcome.bind_ok]
      exact more acc fun j hj => hacc j (List.mem_cons_of_mem _ hj)
    | some fd =>
      have hname : fd.name = k := by simpa using List.find?_some hf
      have hmem := List.mem_of_find?_eq_some hf
      have h0 := hacc k (by simp)
      simp only [h0, Option.isSome_none, Bool.false_eq_true, if_false]
      cases hd : fd.dec v with
      | ok d =>
        rw [Outcome.bind_ok]
        refine more _ fun j hj => ?_
        rw [hmGet_insert, if_neg]
        · exact hacc j (List.mem_cons_of_mem _ hj)
        · rintro rfl; exact hn.1 hj
      | err e' =>
        refine ⟨fun e he => ⟨fd, hmem, v, by rw [hname]; simp, ?_⟩, fun he => by simp at he⟩
        rw [hd]; simpa using he
      | panic =>
        exact ⟨fun e he => by simp at he, fun _ => ⟨fd, hmem, v, by rw [hname]; simp, hd⟩⟩

theorem deStructFinish_all (acc : List (String × Data)) (fds : List FieldDec) (h : ∀ fd ∈ fds, (hmGet acc fd.name).isSome = true) :
    ∃ ds, deStructFinish acc fds = .ok ds := by
  induction fds with
  | nil => exact ⟨[], rfl⟩
  | cons fd r ih =>
    obtain ⟨ds, hds⟩ := ih fun f hf => h f (List.mem_cons_of_mem _ hf)
    obtain ⟨d, hd⟩ := Option.isSome_iff_exists.1 (h fd (by simp))
    exact ⟨_, by rw [deStructFinish, hd, Outcome.bind_ok, hds, Outcome.bind_ok]⟩

/-- A struct read from a map that has all its fields: if that goes wrong, then one of the fields goes wrong, in the same way. -/
theorem struct_all_present (structs : Nat → List (String × Ty)) (k : Nat) (fs : List (String × Ty)) (hf : (fs.map Prod.fst).Nodup)
    (v : Value) (hm : v.isMap = true) (hu : UniqueKeys v) (hall : ∀ f ∈ fs, HasKey v f.1) (o : Outcome ModelError Data)
    (ho : deAt structs k (.struct fs) v = o) (hbad : ∀ d, o ≠ .ok d) : ∃ f ∈ fs, deAt structs k f.2 (v.get f.1) = o := by
  obtain ⟨m, rfl⟩ : ∃ m, v = .map m := by cases v <;> first | exact ⟨_, rfl⟩ | cases hm
  have hn := (uniqueKeys_map.1 hu).1
  rw [deAt, de, deStruct, fieldDecoders_eq] at ho
  have hget : ∀ (f : String × Ty) (x : Value), (f.1, x) ∈ m → (Value.map m).get f.1 = x := fun f x hx =>
    get_of_child (by rw [child_key_map]; exact hmGet_of_mem hn hx)
  obtain ⟨h1, h2⟩ := deStructLoop_bad (fs.map fun f => ⟨f.1, de (refsAt structs k) f.2, missingField f.1 f.2⟩) m [] hn
    (fun _ _ => rfl)
  cases hl : deStructLoop (fs.map fun f => ⟨f.1, de (refsAt structs k) f.2, missingField f.1 f.2⟩) [] m with
  | err e =>
    rw [hl] at ho
    obtain ⟨fd, hfd, x, hx, hdec⟩ := h1 e hl
    obtain ⟨f, hfm, rfl⟩ := List.mem_map.1 hfd
    refine ⟨f, hfm, ?_⟩
    rw [hget f x hx, deAt, ← ho]; exact hdec
  | panic =>
    rw [hl] at ho
    obtain ⟨fd, hfd, x, hx, hdec⟩ := h2 hl
    obtain ⟨f, hfm, rfl⟩ := List.mem_map.1 hfd
    refine ⟨f, hfm, ?_⟩
    rw [hget f x hx, deAt, ← ho]; exact hdec
  | ok acc =>
    exfalso
    obtain ⟨ds, hds⟩ := deStructFinish_all acc (fs.map fun f => ⟨f.1, de (refsAt structs k) f.2, missingField f.1 f.2⟩) (by
      intro fd hfd
      obtain ⟨f, hfm, rfl⟩ := List.mem_map.1 hfd
      have hg := deStructLoop_get _ m [] acc hn hl f.1
      have hk : ∃ x, hmGet m f.1 = some x := by
        have := hall f hfm
        rw [HasKey, view, child_key_map] at this
        cases hh : hmGet m f.1 with
        | none => rw [hh] at this; exact (this rfl).elim
        | some x => exact ⟨x, rfl⟩
      obtain ⟨x, hx⟩ := hk
      have hfind : ∃ fd, (fs.map fun f => (⟨f.1, de (refsAt structs k) f.2, missingField f.1 f.2⟩ : FieldDec)).find?
          (fun fd => fd.name == f.1) = some fd := by
        cases hh : (fs.map fun f => (⟨f.1, de (refsAt structs k) f.2, missingField f.1 f.2⟩ : FieldDec)).find?
          (fun fd => fd.name == f.1) with
        | none => have := List.find?_eq_none.1 hh _ hfd; simp at this
        | some fd => exact ⟨fd, rfl⟩
      obtain ⟨fd, hfd'⟩ := hfind
      rw [hx, hfd'] at hg
      obtain ⟨d, -, hd⟩ := hg
      simp only [hd, Option.isSome_some])
    rw [hl, Outcome.bind_ok, hds, Outcome.bind_ok] at ho
    exact hbad _ ho.symm

/-- **C95.** A struct all of whose fields have a default never misses a field: whenever the configuration made by `create_config!` is built,
the struct can be read exactly if each field can be read from the value under its key, and if it cannot, what it reports is what one of the
fields reports. -/
theorem C95_typed (b : Build) (fm : Formats) (w : World) (args : MacroArgs) (hd : ∀ e ∈ args.default, UniqueKeys e.2)
    (c : Config) (w' : World) (h : createConfig b fm w args = .ok (c, w')) (w2 : World) (skip : Bool) (v : Value)
    (hv : c.buildValue w2 skip = .ok v) (structs : Nat → List (String × Ty)) (k : Nat) (fs : List (String × Ty))
    (hf : (fs.map Prod.fst).Nodup) (hall : ∀ f ∈ fs, f.1 ∈ args.default.map Prod.fst) :
    ((∃ d, deAt structs k (.struct fs) v = .ok d) ↔ ∀ f ∈ fs, ∃ d, deAt structs k f.2 (v.get f.1) = .ok d) ∧
    (∀ e, deAt structs k (.struct fs) v = .err e → ∃ f ∈ fs, deAt structs k f.2 (v.get f.1) = .err e) ∧
    (deAt structs k (.struct fs) v = .panic → ∃ f ∈ fs, deAt structs k f.2 (v.get f.1) = .panic) := by
  obtain ⟨c', w'', dv, g1, -, -, g4⟩ := C95_defaults b fm w args hd
  rw [h] at g1; cases g1
  obtain ⟨hm, hu, hkeys, -⟩ := g4 w2 skip v hv
  have hhas : ∀ f ∈ fs, HasKey v f.1 := by
    intro f hfm
    obtain ⟨e, he, hname⟩ := List.mem_map.1 (hall f hfm)
    rw [← hname]; exact hkeys e he
  have bad := struct_all_present structs k fs hf v hm hu hhas
  refine ⟨⟨?_, fun hfields => ?_⟩, fun e he => bad _ he (by simp), fun he => bad _ he (by simp)⟩
  · rintro ⟨d, hdd⟩ f hfm
    obtain ⟨ds, -, h1, h2⟩ := (C39_struct structs k fs hf v hu hm d).1 hdd
    obtain ⟨i, hi⟩ := List.mem_iff_getElem?.1 hfm
    have l0 : ds.length = fs.length := by simpa using congrArg List.length h1
    obtain ⟨nd, hnd⟩ := get_of_lt (show i < ds.length by rw [l0]; exact lt_of_get hi)
    cases hc : child v (.key f.1) with
    | none => exact (hhas f hfm (by simp [view, hc])).elim
    | some x => exact ⟨nd.2, by rw [get_of_child hc]; exact (h2 i f nd hi hnd).1 x hc⟩
  · cases ho : deAt structs k (.struct fs) v with
    | ok d => exact ⟨d, rfl⟩
    | err e =>
      obtain ⟨f, hfm, hb⟩ := bad _ ho (by simp)
      obtain ⟨d, hd'⟩ := hfields f hfm
      rw [hb] at hd'; cases hd'
    | panic =>
      obtain ⟨f, hfm, hb⟩ := bad _ ho (by simp)
      obtain ⟨d, hd'⟩ := hfields f hfm
      rw [hb] at hd'; cases hd'

/-! ## The example program -/

example : valueMapMacro [("sub_key1", .string "sub_value1"), ("sub_key2", .boolean true)] = some Examples.key3 := by rfl

theorem uniqueKeys_example : ∀ e ∈ Examples.args.default, UniqueKeys e.2 := by
  intro e he
  simp only [Examples.args, List.mem_cons, List.not_mem_nil, or_false] at he
  rcases he with rfl | rfl | rfl
  · trivial
  · trivial
  · simp [Examples.key3, UniqueKeys, UniqueKeysMap, UniqueKeysEntry]

/-- **C95.** The example program `create_config.rs`, in any world: it does not panic; the value it prints is a map that has the keys `key1`, `key2`
and `key3`; and it leaves every file that exists as it is, and creates at most one file. -/
theorem C95_example (b : Build) (fm : Formats) (w : World) :
    ∃ v w', Examples.main b fm w = .ok (v, w') ∧ v.isMap = true ∧ HasKey v "key1" ∧ HasKey v "key2" ∧ HasKey v "key3" ∧
      (∀ p, w.pathExists p = true → w'.disk (w'.locate p) = w.disk (w.locate p)) ∧
      (∀ s t, w'.disk s ≠ w.disk s → w'.disk t ≠ w.disk t → s = t) := by
  obtain ⟨c, w', dv, h1, h2, h3, h4⟩ := C95_defaults b fm w Examples.args uniqueKeys_example
  obtain ⟨v, hv⟩ := h3 w'
  obtain ⟨g1, -, g3, -⟩ := h4 w' true v hv
  have hn : (Examples.args.layers.map LayerSpec.name).Nodup := by decide
  refine ⟨v, w', ?_, g1, g3 _ (List.mem_cons_self ..), g3 _ (List.mem_cons_of_mem _ (List.mem_cons_self ..)),
    g3 _ (List.mem_cons_of_mem _ (List.mem_cons_of_mem _ (List.mem_cons_self ..))),
    fun p hp => C61_existing_kept b fm w Examples.args hn c w' h1 p hp, ?_⟩
  · rw [Examples.main, h1, Outcome.bind_ok]; simp only [hv]
  · obtain ⟨dv', -, hc⟩ := C61_init_safe b fm w Examples.args hn c w' h1
    have only : ∀ s, w'.disk s ≠ w.disk s →
        (layerCandidates b w ".bakunin" ⟨"global", [.userHome, .userConfig], some true⟩).head?.map w.locate = some s := by
      intro s hs
      rcases hc.2 s with h | ⟨-, bytes, ⟨l, hl, hi, p, hp, rfl, -⟩, -⟩
      · exact (hs h).elim
      · simp only [Examples.args, List.mem_cons, List.not_mem_nil, or_false] at hl
        rcases hl with rfl | rfl
        · rw [show ".bakunin" = Examples.args.fileName from rfl, hp]; rfl
        · cases hi
    intro s t hs ht
    have := (only s hs).symm.trans (only t ht)
    exact Option.some.inj this

/-- In a world of its own, without the files and with one variable: `key2` is the text of the variable, the rest the defaults. -/
def exExampleWorld : World := { exFresh with env := [(os "BAK_key2", os "7")] }

example : (match Examples.main exB1 exFormats exExampleWorld with
    | .ok (v, _) => [view v (keys ["key1"]), view v (keys ["key2"]), view v (keys ["key3", "sub_key2"])]
    | _ => []) = [some (.string "value1"), some (.string "7"), some (.boolean true)] := by decide +kernel

/-- The hypotheses of `C95_typed` hold of this run. -/
example : ∃ c w' v, createConfig exB1 exFormats exExampleWorld Examples.args = .ok (c, w') ∧ c.buildValue w' true = .ok v ∧
    ([("key2", Ty.int .u8), ("key1", .string)].map Prod.fst).Nodup ∧
    (∀ f ∈ [("key2", Ty.int .u8), ("key1", .string)], f.1 ∈ Examples.args.default.map Prod.fst) := by
  obtain ⟨c, w', dv, h1, -, h3, -⟩ := C95_defaults exB1 exFormats exExampleWorld Examples.args uniqueKeys_example
  obtain ⟨v, hv⟩ := h3 w'
  exact ⟨c, w', v, h1, hv, by decide, by decide⟩

/-- The hypotheses of `C95_floor` are met by two layers that share a section. -/
example : ∃ v, (register exB1 exFormats [.memory "a" (.map [("s", .map [("x", .boolean true)])]),
    .memory "c" (.map [("s", .map [("y", .boolean true)])])]).buildValue exFresh true = .ok v ∧ view v (keys ["s", "x"]) ≠ none := by
  refine ⟨_, rfl, ?_⟩
  refine C95_floor exB1 exFormats [.memory "a" (.map [("s", .map [("x", .boolean true)])]),
    .memory "c" (.map [("s", .map [("y", .boolean true)])])] exFresh true _ rfl ?_ []
    ("a", .memory (.map [("s", .map [("x", .boolean true)])])) [("c", .memory (.map [("s", .map [("y", .boolean true)])]))]
    (.map [("s", .map [("x", .boolean true)])]) rfl rfl rfl _ (by decide) ?_
  · intro e he
    have hmem := mem_firsts he
    simp only [offers, RegCall.offer, List.filterMap_cons, List.filterMap_nil, List.mem_cons, List.not_mem_nil, or_false] at hmem
    rcases hmem with rfl | rfl <;> intro w v hv <;> cases hv <;> simp [UniqueKeys, UniqueKeysMap, UniqueKeysEntry]
  · intro a ha y hy _ q' h h1 h2 h3
    simp only [List.mem_singleton] at ha
    subst ha
    cases hy
    rcases q' with _ | ⟨j, _ | ⟨j', r⟩⟩
    · cases h3; rfl
    · obtain ⟨rfl, -⟩ := List.cons_prefix_cons.1 h1
      have e : view (.map [("s", .map [("y", .boolean true)])]) (keys ["s"]) = some .map := rfl
      rw [e] at h3; cases h3; rfl
    · obtain ⟨rfl, h4⟩ := List.cons_prefix_cons.1 h1
      obtain ⟨rfl, h5⟩ := List.cons_prefix_cons.1 h4
      rw [List.prefix_nil.1 h5] at h2
      exact (h2 rfl).elim

/-- Why `C95_floor` looks at all later layers: a scalar in one of them and a map in the next remove what was below. -/
theorem C95_removed : ∃ v, (register exB1 exFormats [.memory "a" (.map [("s", .map [("x", .boolean true)])]), .memory "b" (.map [("s", .none)]),
    .memory "c" (.map [("s", .map [("y", .boolean true)])])]).buildValue exFresh true = .ok v ∧
    view v (keys ["s"]) = some .map ∧ view v (keys ["s", "x"]) = none ∧ view v (keys ["s", "y"]) = some (.boolean true) :=
  ⟨_, rfl, rfl, rfl, rfl⟩

/-- A key of the first layer is still there although the second layer has replaced its table. -/
example : HasKey (.map [("s", .boolean false), ("t", .none)]) "s" :=
  C95_key_kept exB1 exFormats [.memory "a" (.map [("s", .map [("x", .boolean true)])]), .memory "c" (.map [("s", .boolean false), ("t", .none)])]
    exFresh true _ rfl (by
      intro e he
      obtain ⟨c, hc, ho⟩ := List.mem_filterMap.1 (mem_firsts he)
      simp only [List.mem_cons, List.not_mem_nil, or_false] at hc
      apply C08_builtin_proper exB1 exFormats c e _ _ ho
      · rcases hc with rfl | rfl <;> trivial
      · rcases hc with rfl | rfl <;> intro n v hv <;> cases hv <;> simp [UniqueKeys, UniqueKeysMap, UniqueKeysEntry])
    ("a", .memory (.map [("s", .map [("x", .boolean true)])])) (List.mem_cons_self) _ rfl "s" (by unfold HasKey; decide)
/-- The struct of the example program is read from the built value exactly if its fields are. -/
example : ∃ v, (∃ d, deAt (fun _ => []) 0 (.struct [("key2", Ty.int .u8), ("key1", .string)]) v = .ok d) ↔
    ∀ f ∈ [("key2", Ty.int .u8), ("key1", .string)], ∃ d, deAt (fun _ => []) 0 f.2 (v.get f.1) = .ok d := by
  obtain ⟨c, w', dv, h1, -, h3, -⟩ := C95_defaults exB1 exFormats exExampleWorld Examples.args uniqueKeys_example
  obtain ⟨v, hv⟩ := h3 w'
  exact ⟨v, (C95_typed exB1 exFormats exExampleWorld Examples.args uniqueKeys_example c w' h1 w' true v hv (fun _ => []) 0
    [("key2", Ty.int .u8), ("key1", .string)] (by decide) (by decide)).1⟩

end Verif.Props
