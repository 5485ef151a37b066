import Verif.Spec.Stateful
import Verif.Props.Config
/-!
# Layers that do things (C88, C89)

`σ` is the state of everything; a layer's methods may change it at will (`DynLayer σ`).
-/
namespace Verif.Props
open Spec
variable {σ : Type}

/-! ## The builder as a loop over the layers -/

/-- The configuration is exactly this list of named layers. -/
def DynIs (c : DynConfig σ) (ls : List (String × DynLayer σ)) : Prop :=
  c.layers = ls ∧ c.names = ls.map Prod.fst ∧ (ls.map Prod.fst).Nodup

theorem dynIs_push {c : DynConfig σ} {ls : List (String × DynLayer σ)} (h : DynIs c ls) (name : String) (l : DynLayer σ) :
    DynIs (c.pushLayer name l) (pushTo ls (name, l)) := by
  obtain ⟨h1, h2, h3⟩ := h
  unfold DynConfig.pushLayer pushTo
  by_cases hm : name ∈ ls.map Prod.fst
  · have : (hmGet c.layers name).isSome = true := by rw [hmGet_isSome_iff, h1]; exact hm
    rw [if_pos this, if_pos hm]
    exact ⟨h1, h2, h3⟩
  · have : ¬ (hmGet c.layers name).isSome = true := by rw [hmGet_isSome_iff, h1]; exact hm
    rw [if_neg this, if_neg hm]
    refine ⟨by simp only [h1]; exact hmInsert_new ls name l hm, by simp [h2], ?_⟩
    rw [List.map_append, List.nodup_append]
    refine ⟨h3, by simp, ?_⟩
    intro a ha b hb
    simp at hb; subst hb
    exact fun e => hm (e ▸ ha)

theorem dynIs_foldl (es : List (String × DynLayer σ)) : ∀ {c : DynConfig σ} {ls : List (String × DynLayer σ)}, DynIs c ls →
    DynIs (es.foldl (fun c e => c.pushLayer e.1 e.2) c) (es.foldl pushTo ls) := by
  induction es with
  | nil => intro c ls h; exact h
  | cons e es ih => intro c ls h; exact ih (dynIs_push h e.1 e.2)

theorem dynIs_pushAll (es : List (String × DynLayer σ)) : DynIs (pushAll es) (firsts es) := by
  have := dynIs_foldl es (c := DynConfig.new) (ls := []) ⟨rfl, rfl, List.nodup_nil⟩
  rw [foldl_pushTo] at this
  have h2 : (firsts es).filter (fun e => e.1 ∉ ([] : List (String × DynLayer σ)).map Prod.fst) = firsts es := by
    rw [List.filter_eq_self]; simp
  rw [h2, List.nil_append] at this
  exact this

/-- The loop of build_value over the layers themselves. -/
def dynLoop (skip : Bool) (value : Value) : List (String × DynLayer σ) → σ → Outcome BakuninError Value × σ
  | [], s => (.ok value, s)
  | e :: ls, s =>
    match e.2.readValue s with
    | (.err x, s) => if skip then dynLoop skip value ls s else (.err x, s)
    | (.ok v, s) => dynLoop skip (value.merge v) ls s
    | (.panic, s) => (.panic, s)

theorem dynLoop_eq (c : DynConfig σ) (skip : Bool) (ls : List (String × DynLayer σ)) : ∀ value s,
    (∀ e ∈ ls, hmGet c.layers e.1 = some e.2) →
      c.buildLoop skip value (ls.map Prod.fst) s = dynLoop skip value ls s := by
  induction ls with
  | nil => intro value s _; rfl
  | cons e ls ih =>
    intro value s h
    rw [List.map_cons, DynConfig.buildLoop, h e (by simp), dynLoop]
    have ih := fun value s => ih value s (fun x hx => h x (by simp [hx]))
    simp only []
    rcases e.2.readValue s with ⟨r, s'⟩
    cases r with
    | err x => cases skip <;> simp [ih]
    | ok v => simp [ih]
    | panic => rfl

theorem dynBuild (es : List (String × DynLayer σ)) (skip : Bool) (s : σ) :
    (pushAll es).buildValue skip s = dynLoop skip Value.newMap (firsts es) s := by
  obtain ⟨h1, h2, h3⟩ := dynIs_pushAll es
  unfold DynConfig.buildValue
  rw [h2]
  apply dynLoop_eq
  intro e he
  rw [h1]; exact hmGet_of_mem' h3 he

/-- A layer none of whose readings ends the build: one step of the loop. -/
theorem dynLoop_goes (skip : Bool) (value : Value) (e : String × DynLayer σ) (ls : List (String × DynLayer σ)) (s : σ)
    (h : Goes skip (e.2.readValue s).1) :
    dynLoop skip value (e :: ls) s =
      dynLoop skip ((values [(e.2.readValue s).1]).foldl Value.merge value) ls (e.2.readValue s).2 := by
  rw [dynLoop]
  rcases hr : e.2.readValue s with ⟨r, s'⟩
  rw [hr] at h
  cases r with
  | ok v => rfl
  | panic => exact absurd rfl h.1
  | err x =>
    cases skip with
    | true => rfl
    | false => exact absurd rfl (h.2 rfl x)

theorem values_append (a b : List (Outcome BakuninError Value)) : values (a ++ b) = values a ++ values b := by
  simp [values, List.filterMap_append]

theorem dynLoop_prefix (skip : Bool) (pre post : List (String × DynLayer σ)) : ∀ value s,
    (∀ r ∈ (readEach (pre.map Prod.snd) s).1, Goes skip r) →
      dynLoop skip value (pre ++ post) s =
        dynLoop skip ((values (readEach (pre.map Prod.snd) s).1).foldl Value.merge value) post
          (readEach (pre.map Prod.snd) s).2 := by
  induction pre with
  | nil => intro value s _; rfl
  | cons e pre ih =>
    intro value s h
    rw [List.map_cons, readEach] at h ⊢
    rw [List.cons_append, dynLoop_goes skip value e _ s (h _ (by simp)), ih _ _ (fun r hr => h r (by simp [hr]))]
    congr 1
    rw [← List.foldl_append, ← values_append]; rfl

/-! ## C88: which calls build_value makes -/

/-- **C88**, the calls: `build_value(skip)` calls `read_value` of the registered layers (the first pushed under each name), one after the
other in the order they were pushed, and nothing else: if no answer ends the build, each is called exactly once, the state afterwards
is the one these calls leave behind, and the value is the merge of the answers that are values. -/
theorem C88_reads_each_once (es : List (String × DynLayer σ)) (skip : Bool) (s : σ)
    (h : ∀ r ∈ (readEach ((firsts es).map Prod.snd) s).1, Goes skip r) :
    (pushAll es).buildValue skip s =
      (.ok ((values (readEach ((firsts es).map Prod.snd) s).1).foldl Value.merge Value.newMap),
        (readEach ((firsts es).map Prod.snd) s).2) := by
  rw [dynBuild]
  have := dynLoop_prefix skip (firsts es) [] Value.newMap s h
  rw [List.append_nil] at this
  rw [this]; rfl

/-- **C88**, the first bad answer: it is the result, and the layers after it are not called. -/
theorem C88_stops (es : List (String × DynLayer σ)) (skip : Bool) (s : σ) (pre post : List (String × DynLayer σ))
    (e : String × DynLayer σ) (hs : firsts es = pre ++ e :: post)
    (hpre : ∀ r ∈ (readEach (pre.map Prod.snd) s).1, Goes skip r)
    (he : ¬ Goes skip (e.2.readValue (readEach (pre.map Prod.snd) s).2).1) :
    (pushAll es).buildValue skip s = e.2.readValue (readEach (pre.map Prod.snd) s).2 := by
  rw [dynBuild, hs, dynLoop_prefix skip pre _ _ s hpre, dynLoop]
  rcases hr : e.2.readValue (readEach (pre.map Prod.snd) s).2 with ⟨r, s'⟩
  rw [hr] at he
  cases r with
  | ok v => exact absurd ⟨by simp, by simp⟩ he
  | panic => rfl
  | err x =>
    cases skip with
    | true => exact absurd ⟨by simp, by simp⟩ he
    | false => rfl

/-- **C88**, one of the two always applies. -/
theorem C88_cases (ls : List (String × DynLayer σ)) (skip : Bool) (s : σ) :
    (∀ r ∈ (readEach (ls.map Prod.snd) s).1, Goes skip r) ∨
    ∃ pre e post, ls = pre ++ e :: post ∧ (∀ r ∈ (readEach (pre.map Prod.snd) s).1, Goes skip r) ∧
      ¬ Goes skip (e.2.readValue (readEach (pre.map Prod.snd) s).2).1 := by
  induction ls generalizing s with
  | nil => left; intro r hr; cases hr
  | cons e ls ih =>
    by_cases he : Goes skip (e.2.readValue s).1
    · rcases ih (e.2.readValue s).2 with h | ⟨pre, e', post, h1, h2, h3⟩
      · left
        intro r hr
        rw [List.map_cons, readEach] at hr
        rcases List.mem_cons.1 hr with rfl | hr
        · exact he
        · exact h r hr
      · right
        refine ⟨e :: pre, e', post, by rw [h1]; rfl, ?_, h3⟩
        intro r hr
        rw [List.map_cons, readEach] at hr
        rcases List.mem_cons.1 hr with rfl | hr
        · exact he
        · exact h2 r hr
    · exact Or.inr ⟨[], e, ls, rfl, (by intro r hr; cases hr), he⟩

theorem recorded_loop (skip : Bool) (ls : List (String × DynLayer σ)) : ∀ (value : Value) (s : σ) (log : List (String × Method)),
    ∃ k, k ≤ ls.length ∧
      dynLoop skip value (ls.map fun e => (e.1, recorded e.1 e.2)) (s, log) =
        ((dynLoop skip value ls s).1, (dynLoop skip value ls s).2, log ++ ((ls.take k).map fun e => (e.1, Method.readValue))) ∧
      ((∃ v, (dynLoop skip value ls s).1 = .ok v) → k = ls.length) ∧
      (skip = true → (dynLoop skip value ls s).1 ≠ .panic → k = ls.length) := by
  induction ls with
  | nil => intro value s log; exact ⟨0, Nat.le_refl _, by simp [dynLoop], by simp, by simp⟩
  | cons e ls ih =>
    intro value s log
    have hrec : (recorded e.1 e.2).readValue (s, log) =
        ((e.2.readValue s).1, (e.2.readValue s).2, log ++ [(e.1, Method.readValue)]) := rfl
    rw [List.map_cons, dynLoop, dynLoop]
    simp only [hrec]
    rcases e.2.readValue s with ⟨r, s'⟩
    have go : ∀ value', ∃ k, k ≤ (e :: ls).length ∧
        dynLoop skip value' (ls.map fun e => (e.1, recorded e.1 e.2)) (s', log ++ [(e.1, Method.readValue)]) =
        ((dynLoop skip value' ls s').1, (dynLoop skip value' ls s').2,
          log ++ (((e :: ls).take k).map fun e => (e.1, Method.readValue))) ∧
        ((∃ v, (dynLoop skip value' ls s').1 = .ok v) → k = (e :: ls).length) ∧
        (skip = true → (dynLoop skip value' ls s').1 ≠ .panic → k = (e :: ls).length) := by
      intro value'
      obtain ⟨k, h1, h2, h3, h4⟩ := ih value' s' (log ++ [(e.1, Method.readValue)])
      refine ⟨k + 1, by simpa using h1, ?_, fun h => by simp [h3 h], fun a b => by simp [h4 a b]⟩
      rw [h2]; simp
    cases r with
    | ok v => exact go _
    | panic => exact ⟨1, by simp, by simp, by simp, by simp⟩
    | err x =>
      cases skip with
      | true => exact go _
      | false => exact ⟨1, by simp, by simp, by simp, by simp⟩

theorem firsts_map_snd {α β : Type} (f : String → α → β) (es : List (String × α)) :
    firsts (es.map fun e => (e.1, f e.1 e.2)) = (firsts es).map fun e => (e.1, f e.1 e.2) := by
  induction es with
  | nil => rfl
  | cons e es ih =>
    obtain ⟨k, v⟩ := e
    simp only [List.map_cons, firsts, ih, List.filter_map]
    rfl

/-- **C88**, on the record: with every call of every method of every layer on record, `build_value` adds to the record one `read_value` per
layer for a leading part of the layers, in order, and nothing else; the leading part is all of them if the build succeeds or skips
errors without a panic. Being on record does not change what happens. -/
theorem C88_record (es : List (String × DynLayer σ)) (skip : Bool) (s : σ) (log : List (String × Method)) :
    ∃ k, k ≤ (firsts es).length ∧
      (pushAll (es.map fun e => (e.1, recorded e.1 e.2))).buildValue skip (s, log) =
        (((pushAll es).buildValue skip s).1, ((pushAll es).buildValue skip s).2,
          log ++ (((firsts es).map Prod.fst).take k).map fun n => (n, Method.readValue)) ∧
      ((∃ v, ((pushAll es).buildValue skip s).1 = .ok v) → k = (firsts es).length) ∧
      (skip = true → ((pushAll es).buildValue skip s).1 ≠ .panic → k = (firsts es).length) := by
  obtain ⟨k, h1, h2, h3, h4⟩ := recorded_loop skip (firsts es) Value.newMap s log
  refine ⟨k, h1, ?_, ?_, ?_⟩
  · rw [dynBuild, dynBuild, firsts_map_snd (fun n l => recorded n l), h2]
    simp [← List.map_take]
  · rw [dynBuild]; exact h3
  · rw [dynBuild]; exact h4

/-- **C88**, what the value shows: at each path, the last answer that speaks about it, as answered in this very build. (Every answer being a
value with unique keys is a matter of course in Rust.) -/
theorem C88_last_speaker (es : List (String × DynLayer σ)) (skip : Bool) (s s' : σ) (v : Value)
    (hb : (pushAll es).buildValue skip s = (.ok v, s'))
    (hu : ∀ x ∈ values (readEach ((firsts es).map Prod.snd) s).1, UniqueKeys x) (p : Path) :
    (∀ pre x post, values (readEach ((firsts es).map Prod.snd) s).1 = pre ++ x :: post → x.isMap = true → ¬ Silent x p →
      (∀ y ∈ post, y.isMap = true → Silent y p) → view v p = view x p) ∧
    ((∀ y ∈ values (readEach ((firsts es).map Prod.snd) s).1, y.isMap = true → Silent y p) →
      view v p = view Value.newMap p) := by
  have hv : v = (values (readEach ((firsts es).map Prod.snd) s).1).foldl Value.merge Value.newMap := by
    rcases C88_cases (firsts es) skip s with h | ⟨pre, e, post, h1, h2, h3⟩
    · rw [C88_reads_each_once es skip s h] at hb
      simp at hb; exact hb.1.symm
    · rw [C88_stops es skip s pre post e h1 h2 h3] at hb
      rw [hb] at h3
      exact absurd ⟨by simp, by simp⟩ h3
  subst hv
  constructor
  · intro pre x post hvs hm hs hpost
    rw [hvs] at hu ⊢
    rw [List.foldl_append, List.foldl_cons]
    have h0 : (pre.foldl Value.merge Value.newMap).isMap = true := by rw [isMap_foldl_merge]; rfl
    rw [view_foldl_silent]
    · exact (view_merge' h0 hm (hu x (by simp)) p).2 hs
    · rw [isMap_merge]; exact h0
    · intro y hy; exact hu y (by simp [hy])
    · exact hpost
  · intro hno
    exact view_foldl_silent _ _ _ rfl hu hno

/-- **C88**, layers without effects: for the crate's own layers and stateless user layers this is the `build_value` of the other
properties, and the world is left alone. -/
theorem C88_stateless (b : Build) (fm : Formats) (calls : List RegCall) (skip : Bool) (w : World) :
    (pushAll ((offers b fm calls).map fun e => (e.1, e.2.toDyn))).buildValue skip w =
      (Outcome.ofExcept ((register b fm calls).buildValue w skip), w) := by
  have hf : firsts ((offers b fm calls).map fun e => (e.1, e.2.toDyn)) =
      (firsts (offers b fm calls)).map fun e => (e.1, e.2.toDyn) := firsts_map_snd (fun _ (l : Layer) => l.toDyn) _
  rw [dynBuild, hf, buildValue_is (is_register b fm calls)]
  generalize Value.newMap = value
  induction firsts (offers b fm calls) generalizing value with
  | nil => rfl
  | cons e ls ih =>
    rw [List.map_cons, dynLoop, buildList]
    have hr : e.2.toDyn.readValue w = (Outcome.ofExcept (e.2.readValue w), w) := rfl
    simp only [hr]
    cases e.2.readValue w with
    | error x => cases skip with
      | true => simpa using ih value
      | false => rfl
    | ok v => simpa using ih _

/-- **C88**, the registry: `get_layer` gives the first layer pushed under the name (so whatever is called on it reaches that layer), and
pushing under a taken name changes nothing. -/
theorem C88_get_layer (es : List (String × DynLayer σ)) (name : String) :
    (pushAll es).getLayer name = (es.find? fun e => e.1 == name).map Prod.snd ∧
    ∀ l, (∃ e ∈ es, e.1 = name) → (pushAll es).pushLayer name l = pushAll es := by
  obtain ⟨h1, h2, h3⟩ := dynIs_pushAll es
  constructor
  · rw [DynConfig.getLayer, h1, find_firsts]
  · rintro l ⟨e, he, rfl⟩
    unfold DynConfig.pushLayer
    rw [if_pos]
    rw [h1, find_firsts, Option.isSome_map, List.find?_isSome]
    exact ⟨e, he, by simp⟩

/-- **C88**, writing through the registry: for the crate's own layers, the layer `get_layer` gives under a name is the one registered under it; writing through it
has the outcome and effect of that layer's `write_value`, and the next build reads the world as written. -/
theorem C88_write (b : Build) (fm : Formats) (calls : List RegCall) (name : String) (v : Value) (skip : Bool) (w : World) :
    ((register b fm calls).getLayer name = none ↔ (pushAll ((offers b fm calls).map fun e => (e.1, e.2.toDyn))).getLayer name = none) ∧
    ∀ l, (register b fm calls).getLayer name = some l →
      ∃ dl, (pushAll ((offers b fm calls).map fun e => (e.1, e.2.toDyn))).getLayer name = some dl ∧
        (dl.getName w).1 = l.getName ∧ (dl.hasValue w).1 = l.hasValue w ∧ (dl.canWrite w).1 = l.canWrite w ∧
        (∀ r w', l.writeValue w v = (r, w') →
          dl.writeValue v w = (Outcome.ofExcept r, w') ∧
          (pushAll ((offers b fm calls).map fun e => (e.1, e.2.toDyn))).buildValue skip (dl.writeValue v w).2 =
            (Outcome.ofExcept ((register b fm calls).buildValue w' skip), w')) := by
  have hf : (pushAll ((offers b fm calls).map fun e => (e.1, e.2.toDyn))).getLayer name = ((register b fm calls).getLayer name).map Layer.toDyn := by
    rw [(C88_get_layer _ name).1, Config.getLayer, (is_register b fm calls).1, find_firsts, List.find?_map, Option.map_map, Option.map_map]
    rfl
  rw [hf]
  refine ⟨by simp, ?_⟩
  intro l hl
  rw [hl]
  refine ⟨l.toDyn, rfl, rfl, rfl, rfl, ?_⟩
  intro r w' h
  have hw : l.toDyn.writeValue v w = (Outcome.ofExcept r, w') := by
    show (Outcome.ofExcept (l.writeValue w v).1, (l.writeValue w v).2) = _
    rw [h]
  refine ⟨hw, ?_⟩
  rw [hw]
  exact C88_stateless b fm calls skip w'

/-! ### Example: a layer that counts its calls and fails every second time -/

/-- The state is a number; every reading increases it; odd readings fail, and every answer tells the number. -/
def exFlaky : DynLayer Nat where
  getName n := ("Flaky", n)
  hasValue n := (true, n)
  readValue n := (if n % 2 = 1 then .err (.custom n) else .ok (.map [("seen", .uInteger (IntTy.wrap .u64 n))]), n + 1)
  canWrite n := (true, n)
  writeValue _ n := (.ok (), n + 100)

def exFlakies : List (String × DynLayer Nat) := [("a", exFlaky), ("b", exFlaky), ("a", exFlaky), ("c", exFlaky)]

example : (pushAll exFlakies).buildValue true 0 = (.ok (.map [("seen", .uInteger (IntTy.wrap .u64 2))]), 3) := by rfl
example : (pushAll exFlakies).buildValue false 0 = (.err (.custom 1), 2) := by rfl
example : (pushAll exFlakies).buildValue true 1 = (.ok (.map [("seen", .uInteger (IntTy.wrap .u64 2))]), 4) := by rfl
example : ∀ r ∈ (readEach ((firsts exFlakies).map Prod.snd) 0).1, Goes true r := by
  intro r hr
  have : r = .ok (.map [("seen", .uInteger (IntTy.wrap .u64 0))]) ∨ r = .err (.custom 1) ∨ r = .ok (.map [("seen", .uInteger (IntTy.wrap .u64 2))]) := by
    simpa [exFlakies, firsts, readEach, exFlaky] using hr
  rcases this with rfl | rfl | rfl <;> exact ⟨by simp, by simp⟩
example : firsts exFlakies = [("a", exFlaky)] ++ ("b", exFlaky) :: [("c", exFlaky)] ∧
    (∀ r ∈ (readEach (([("a", exFlaky)] : List (String × DynLayer Nat)).map Prod.snd) 0).1, Goes false r) ∧
    ¬ Goes false (exFlaky.readValue (readEach (([("a", exFlaky)] : List (String × DynLayer Nat)).map Prod.snd) 0).2).1 := by
  refine ⟨by simp [exFlakies, firsts], ?_, ?_⟩
  · intro r hr
    have : r = .ok (.map [("seen", .uInteger (IntTy.wrap .u64 0))]) := by simpa [readEach, exFlaky] using hr
    subst this; exact ⟨by simp, by simp⟩
  · intro h; exact h.2 rfl (.custom 1) rfl
/-- With these hypotheses, by the theorems: skipping errors, the build reads `a`, `b` and `c` once each and merges the two values; not
skipping, it ends with `b`'s error, `c` unread. -/
example : (pushAll exFlakies).buildValue true 0 = (.ok (.map [("seen", .uInteger (IntTy.wrap .u64 2))]), 3) :=
  C88_reads_each_once exFlakies true 0 (by
    intro r hr
    have : r = .ok (.map [("seen", .uInteger (IntTy.wrap .u64 0))]) ∨ r = .err (.custom 1) ∨ r = .ok (.map [("seen", .uInteger (IntTy.wrap .u64 2))]) := by
      simpa [exFlakies, firsts, readEach, exFlaky] using hr
    rcases this with rfl | rfl | rfl <;> exact ⟨by simp, by simp⟩)
example : (pushAll exFlakies).buildValue false 0 = (.err (.custom 1), 2) :=
  C88_stops exFlakies false 0 [("a", exFlaky)] [("c", exFlaky)] ("b", exFlaky) (by simp [exFlakies, firsts])
    (by
      intro r hr
      have : r = .ok (.map [("seen", .uInteger (IntTy.wrap .u64 0))]) := by simpa [readEach, exFlaky] using hr
      subst this; exact ⟨by simp, by simp⟩)
    (fun h => h.2 rfl (.custom 1) rfl)
/-- The calls on record: three when errors are skipped. -/
example : ((pushAll (exFlakies.map fun e => (e.1, recorded e.1 e.2))).buildValue true (0, [])).2.2 =
    [("a", Method.readValue), ("b", Method.readValue), ("c", Method.readValue)] := by
  obtain ⟨k, -, h2, h3, -⟩ := C88_record exFlakies true 0 []
  rw [h2, h3 ⟨_, rfl⟩]
  simp [exFlakies, firsts]
/-- `c`, read last, decides. -/
example : view (.map [("seen", .uInteger (IntTy.wrap .u64 2))]) [.key "seen"] = view (.map [("seen", .uInteger (IntTy.wrap .u64 2))]) [.key "seen"] :=
  (C88_last_speaker exFlakies true 0 3 (.map [("seen", .uInteger (IntTy.wrap .u64 2))]) rfl (by
      intro x hx
      have : x = .map [("seen", .uInteger (IntTy.wrap .u64 0))] ∨ x = .map [("seen", .uInteger (IntTy.wrap .u64 2))] := by
        simpa [exFlakies, firsts, readEach, exFlaky, values] using hx
      rcases this with rfl | rfl <;> simp [UniqueKeys, UniqueKeysMap, UniqueKeysEntry]) [.key "seen"]).1
    [.map [("seen", .uInteger (IntTy.wrap .u64 0))]] _ [] rfl rfl
    (by
      rintro ⟨q, k, r, e, -, h⟩
      cases q with
      | nil => simp at e; rw [← e.1] at h; revert h; decide
      | cons s q => simp at e) (by simp)
/-- Pushing another layer under a taken name changes nothing. -/
example (l : DynLayer Nat) : (pushAll exFlakies).pushLayer "b" l = pushAll exFlakies :=
  (C88_get_layer exFlakies "b").2 l ⟨("b", exFlaky), by simp [exFlakies], rfl⟩
/-- The hypotheses of `C88_write`: the file layer `f` of `exCalls`. -/
example : ∃ l, (register exB1 exFormats exCalls).getLayer "f" = some l := ⟨_, rfl⟩

end Verif.Props
