import Verif.Lemmas.Equality
import Verif.Props.Merge
/-! # Properties of the basic `Value` API (C15–C22) -/
namespace Verif.Props
open Spec

/-! ## C15 -/

/-- A history of `set` calls, ignoring their results (which `C15_set_ok` shows to be `Ok`). -/
def runSets (v : Value) (hist : List (String × Value)) : Value :=
  hist.foldl (fun v e => (v.set e.1 e.2).2) v

/-- The last value given to `k` in a history. -/
def lastSet (hist : List (String × Value)) (k : String) : Option Value :=
  (hist.reverse.find? (fun e => e.1 == k)).map Prod.snd

theorem runSets_map (m : Entries) (hist : List (String × Value)) :
    runSets (.map m) hist = .map (hist.foldl (fun m e => hmInsert m e.1 e.2) m) := by
  induction hist generalizing m with
  | nil => rfl
  | cons e h ih => simp only [runSets, List.foldl_cons, Value.set] at ih ⊢; exact ih _

theorem foldl_insert_get (hist : List (String × Value)) (m : Entries) (k : String) :
    hmGet (hist.foldl (fun m e => hmInsert m e.1 e.2) m) k = (lastSet hist k).or (hmGet m k) := by
  induction hist generalizing m with
  | nil => simp [lastSet]
  | cons e h ih =>
    obtain ⟨k', v⟩ := e
    rw [List.foldl_cons, ih, hmGet_insert]
    have : lastSet ((k', v) :: h) k = (lastSet h k).or (if k' = k then some v else none) := by
      simp only [lastSet, List.reverse_cons, List.find?_append]
      cases hf : h.reverse.find? (fun e => e.1 == k) with
      | none => by_cases hk : k' = k <;> simp [hk]
      | some x => simp
    rw [this]
    by_cases hk : k' = k
    · subst hk; cases lastSet h k' <;> simp
    · have hk' : ¬ k = k' := fun h => hk h.symm
      cases lastSet h k <;> simp [hk]

/-- **C15.** `set` on a map never fails, whatever was set before. -/
theorem C15_set_ok (v : Value) (hv : v.isMap = true) (hist : List (String × Value)) (k : String) (x : Value) :
    (runSets v hist).isMap = true ∧ ((runSets v hist).set k x).1 = .ok () := by
  obtain ⟨m, rfl⟩ := (isMap_cases v).resolve_right (by simp [hv])
  rw [runSets_map]; exact ⟨rfl, rfl⟩

example : ((runSets exA [("k", .none), ("new", .boolean true), ("k", .string "s")]).set "k" exB).1 = .ok () :=
  (C15_set_ok exA rfl _ "k" exB).2

/-- **C15.** After any history of `set` on a map, `get(k)` returns the last value set for `k`, else what was
there before. -/
theorem C15_get_after_sets (v : Value) (hv : v.isMap = true) (hist : List (String × Value)) (k : String) :
    (runSets v hist).get k = (lastSet hist k).getD (v.get k) := by
  obtain ⟨m, rfl⟩ := (isMap_cases v).resolve_right (by simp [hv])
  rw [runSets_map]
  simp only [Value.get, foldl_insert_get]
  cases lastSet hist k <;> simp

example : (runSets exA [("k", .none), ("new", .boolean true), ("k", .string "s")]).get "k" = .string "s" ∧
    (runSets exA [("k", .none), ("new", .boolean true), ("k", .string "s")]).get "z" = .boolean true :=
  ⟨C15_get_after_sets exA rfl _ "k", C15_get_after_sets exA rfl _ "z"⟩

/-- **C15.** Which keys exist: those of the history and those there before; `new_map()` has none. -/
theorem C15_keys_after_sets (v : Value) (hv : v.isMap = true) (hist : List (String × Value)) (k : String) :
    (HasKey (runSets v hist) k ↔ (k ∈ hist.map Prod.fst ∨ HasKey v k)) ∧ ¬ HasKey Value.newMap k := by
  obtain ⟨m, rfl⟩ := (isMap_cases v).resolve_right (by simp [hv])
  refine ⟨?_, by simp [HasKey, Value.newMap, view, child]⟩
  rw [runSets_map]
  have e : ∀ m : Entries, HasKey (.map m) k ↔ hmGet m k ≠ none := by
    intro m; unfold HasKey; rw [view_key_map]; cases hmGet m k <;> simp [view]
  rw [e, e, foldl_insert_get]
  have : lastSet hist k = none ↔ k ∉ hist.map Prod.fst := by
    unfold lastSet
    rw [Option.map_eq_none_iff, List.find?_eq_none]
    simp only [List.mem_reverse, List.mem_map, beq_iff_eq]
    constructor
    · rintro h ⟨e, he, hk⟩; exact h e he hk
    · intro h e he hk; exact h ⟨e, he, hk⟩
  by_cases hk : k ∈ hist.map Prod.fst
  · have : lastSet hist k ≠ none := fun h => this.1 h hk
    cases hl : lastSet hist k with
    | none => exact absurd hl this
    | some x => simp [hk]
  · rw [this.2 hk]; simp [hk]

example : HasKey (runSets exA [("k", .none), ("new", .none)]) "new" ∧ HasKey (runSets exA [("k", .none), ("new", .none)]) "z" ∧
    ¬ HasKey (runSets exA [("k", .none), ("new", .none)]) "x" := by
  refine ⟨((C15_keys_after_sets exA rfl _ "new").1).2 (Or.inl (by decide)),
    ((C15_keys_after_sets exA rfl _ "z").1).2 (Or.inr (by unfold HasKey; decide)),
    fun h => ((C15_keys_after_sets exA rfl _ "x").1.1 h).elim (by decide) (by unfold HasKey; decide)⟩

/-- **C15.** From `new_map()` on: the last value set for `k`, and `None` if `k` was never set. -/
theorem C15_from_new (hist : List (String × Value)) (k : String) :
    (runSets Value.newMap hist).get k = (lastSet hist k).getD .none ∧
    (k ∉ hist.map Prod.fst → (runSets Value.newMap hist).get k = .none) ∧
    (∀ v : Value, v.isMap = true → ¬ HasKey v k → k ∉ hist.map Prod.fst → (runSets v hist).get k = .none) := by
  have hno : ∀ v : Value, v.isMap = true → ¬ HasKey v k → v.get k = .none := by
    intro v hv hk
    obtain ⟨m, rfl⟩ := (isMap_cases v).resolve_right (by simp [hv])
    unfold HasKey at hk
    rw [view_key_map] at hk
    simp only [Value.get]
    cases hg : hmGet m k with
    | none => rfl
    | some x => rw [hg] at hk; simp [view] at hk
  have hgen : ∀ v : Value, v.isMap = true → ¬ HasKey v k → k ∉ hist.map Prod.fst → (runSets v hist).get k = .none := by
    intro v hv hk hh
    refine hno _ (C15_set_ok v hv hist "" .none).1 ?_
    rw [(C15_keys_after_sets v hv hist k).1]
    rintro (h | h)
    · exact hh h
    · exact hk h
  have hnew := (C15_keys_after_sets Value.newMap rfl hist k).2
  refine ⟨?_, hgen _ rfl hnew, hgen⟩
  rw [C15_get_after_sets _ rfl hist k, hno _ rfl hnew]

example : (runSets Value.newMap [("a", .boolean true), ("b", .none), ("a", .string "x")]).get "a" = .string "x" := by
  rfl

/-! ## C16 -/

/-- A history of `push` calls. -/
def runPushes (v : Value) (hist : List Value) : Value := hist.foldl (fun v x => (v.push x).2) v

theorem runPushes_array (xs hist : List Value) : runPushes (.array xs) hist = .array (xs ++ hist) := by
  induction hist generalizing xs with
  | nil => simp [runPushes]
  | cons e h ih =>
    simp only [runPushes, List.foldl_cons, Value.push] at ih ⊢
    rw [ih]; simp

/-- **C16.** After any history of `push` on an array, `at(i)` is the `i`-th element, old ones first, in push
order; `None` beyond the end; `len` counts them; `push` never fails. -/
theorem C16_pushes (xs hist : List Value) (x : Value) :
    (∀ i, (runPushes (.array xs) hist).at' i = ((xs ++ hist)[i]?).getD .none) ∧
    (runPushes (.array xs) hist).len = xs.length + hist.length ∧
    ((runPushes (.array xs) hist).push x).1 = .ok () := by
  rw [runPushes_array]
  refine ⟨fun i => ?_, by simp [Value.len], rfl⟩
  simp only [Value.at']
  cases (xs ++ hist)[i]? <;> rfl

/-- **C16.** From `new_array()` or `with_array_capacity(n)` on (the capacity is not a length): exactly the elements pushed. -/
theorem C16_from_new (hist : List Value) (n : Nat) (a : Value) (ha : a = Value.newArray ∨ a = Value.withArrayCapacity n) :
    (∀ i, (runPushes a hist).at' i = (hist[i]?).getD .none) ∧ (runPushes a hist).len = hist.length := by
  have e : a = .array [] := by rcases ha with h | h <;> exact h
  subst e
  have h := C16_pushes [] hist .none
  simp only [List.nil_append, List.length_nil, Nat.zero_add] at h
  exact ⟨h.1, h.2.1⟩

example : (runPushes Value.newArray [.boolean true, .none]).at' 0 = .boolean true := rfl
example : (runPushes Value.newArray [.boolean true, .none]).at' 7 = .none := rfl

/-! ## C17 -/

theorem take_array (xs : List Value) (n j : Nat) :
    ValueIter.take n ⟨.array xs, j⟩ = (List.range n).map (fun i => xs[j + i]?) := by
  induction n generalizing j with
  | zero => rfl
  | succ n ih =>
    rw [ValueIter.take, List.range_succ_eq_map]
    simp only [ValueIter.next, List.map_cons, List.map_map]
    rw [ih]
    simp only [List.cons.injEq, Nat.add_zero, true_and]
    apply List.map_congr_left
    intro i _
    simp only [Function.comp]
    congr 1; omega

/-- **C17.** The answers of the first `n` calls of `next` on `v.iter()`: the `i`-th is element `i` (what `at(i)`
returns) while `i < len`, and nothing from then on; nothing at all for a non-array. -/
theorem C17_iter (v : Value) (n i : Nat) (hi : i < n) :
    (ValueIter.take n v.iter)[i]? = some (if v.isArray ∧ i < v.len then some (v.at' i) else none) := by
  cases v with
  | array xs =>
    rw [Value.iter, take_array]
    simp only [Value.isArray, Value.len, Value.at', true_and]
    rw [List.getElem?_map, List.getElem?_range hi]
    by_cases h : i < xs.length
    · simp [h]
    · simp [h]
  | _ =>
    simp only [Value.iter, Value.isArray, Bool.false_eq_true, false_and, if_false]
    have : ∀ w : Value, w.isArray = false → ∀ n i, i < n → (ValueIter.take n ⟨w, 0⟩)[i]? = some none := by
      intro w hw n
      induction n with
      | zero => intro i h; omega
      | succ n ih =>
        intro i hi
        have h1 : (⟨w, 0⟩ : ValueIter).next = (none, ⟨w, 0⟩) := by
          cases w <;> first | rfl | simp [Value.isArray] at hw
        rw [ValueIter.take, h1]
        cases i with
        | zero => rfl
        | succ i => simpa using ih i (by omega)
    exact this _ rfl n i hi

example : ValueIter.take 4 (Value.array [.none, .boolean true]).iter = [some .none, some (.boolean true), none, none] :=
  rfl

/-! ## C18 -/

/-- **C18.** Wrong-kind accesses: `None` from the readers, the dedicated error and no change from the writers. -/
theorem C18_wrong_kind (v x : Value) (k : String) (i : Nat) :
    (v.isMap = false → v.get k = .none ∧ v.set k x = (.error .operationOnlyForMapValue, v)) ∧
    (v.isArray = false → v.at' i = .none ∧ v.push x = (.error .operationOnlyForArrayValue, v)) := by
  cases v <;> simp [Value.isMap, Value.isArray, Value.get, Value.set, Value.at', Value.push]

/-- A map is the wrong kind for `at` and `push`, an array for `get` and `set`, a scalar for all four. -/
example : exA.push .none = (.error .operationOnlyForArrayValue, exA) ∧
    (Value.array [exA]).set "k" .none = (.error .operationOnlyForMapValue, .array [exA]) ∧
    (Value.string "s").get "k" = .none ∧ (Value.string "s").at' 0 = .none :=
  ⟨((C18_wrong_kind exA .none "k" 0).2 rfl).2, ((C18_wrong_kind (.array [exA]) .none "k" 0).1 rfl).2,
   ((C18_wrong_kind (.string "s") .none "k" 0).1 rfl).1, ((C18_wrong_kind (.string "s") .none "k" 0).2 rfl).1⟩

/-- A chain of `.get(..)` / `.at(..)` calls. -/
def chain (v : Value) (p : Path) : Value :=
  p.foldl (fun v s => match s with | .key k => v.get k | .idx i => v.at' i) v

theorem chain_none (p : Path) : chain .none p = .none := by
  induction p with
  | nil => rfl
  | cons s p ih => cases s <;> exact ih

theorem step_eq (v : Value) (s : Step) :
    (match s with | .key k => v.get k | .idx i => v.at' i) = (child v s).getD .none := by
  cases s with
  | key k =>
    rcases isMap_cases v with ⟨m, rfl⟩ | h
    · rw [child_key_map]; simp only [Value.get]; cases hmGet m k <;> rfl
    · rw [child_key_nonmap h]; cases v <;> first | rfl | simp [Value.isMap] at h
  | idx i =>
    cases v <;> try rfl
    rename_i xs
    simp only [Value.at', child]; cases xs[i]? <;> rfl

/-- **C18.** A chain of accesses of any length returns what is there, and `None` as soon as one step is missing. -/
theorem C18_chain (v : Value) (p : Path) :
    (∀ h, view v p = some h → head (chain v p) = h) ∧
    (∀ q r, p = q ++ r → view v q = none → chain v p = .none) := by
  induction p generalizing v with
  | nil =>
    refine ⟨fun h e => by simpa [view, chain] using e, fun q r e hq => ?_⟩
    have : q = [] := (List.append_eq_nil_iff.1 e.symm).1
    subst this; simp [view] at hq
  | cons s p ih =>
    have hc : chain v (s :: p) = chain ((child v s).getD .none) p := by
      rw [← step_eq]; rfl
    rw [hc]
    cases hs : child v s with
    | none => simp [chain_none, view, hs]
    | some w =>
      simp only [Option.getD_some]
      refine ⟨fun h e => (ih w).1 h (by simpa [view, hs] using e), fun q r e hq => ?_⟩
      cases q with
      | nil => simp [view] at hq
      | cons s' q =>
        simp only [List.cons_append, List.cons.injEq] at e
        obtain ⟨rfl, e⟩ := e
        exact (ih w).2 q r e (by simpa [view, hs] using hq)

example : chain exA [.key "k", .key "y"] = .string "old" := rfl
example : chain exA [.key "k", .idx 3, .key "y"] = .none := rfl

/-! ## C64 -/

/-- **C64.** The kind predicates: `is_map` iff `set` works, `is_array` iff `push` works, `is_none` iff the value is `None`, i.e. neither
a scalar nor a container; at most one of the three holds; and which constructors give which. -/
theorem C64_kinds (v x : Value) (k : String) (n : Nat) :
    (v.isMap = true ↔ (v.set k x).1 = .ok ()) ∧ (v.isArray = true ↔ (v.push x).1 = .ok ()) ∧
    (v.isNone = true ↔ head v = .none) ∧ (v.isMap = true ↔ head v = .map) ∧ (v.isArray = true ↔ ∃ m, head v = .array m) ∧
    ¬ (v.isMap = true ∧ v.isArray = true) ∧ ¬ (v.isMap = true ∧ v.isNone = true) ∧ ¬ (v.isArray = true ∧ v.isNone = true) ∧
    Value.new.isNone = true ∧ Value.newMap.isMap = true ∧ Value.newArray.isArray = true ∧
    (Value.withArrayCapacity n).isArray = true ∧ Value.newMap.len = 0 ∧ Value.newArray.len = 0 ∧ (Value.withArrayCapacity n).len = 0 := by
  refine ⟨?_, ?_, ?_, ?_, ?_, ?_, ?_, ?_, rfl, rfl, rfl, rfl, rfl, rfl, rfl⟩ <;>
    cases v <;> simp [Value.isMap, Value.isArray, Value.isNone, Value.set, Value.push, head]

/-- **C64.** No update changes the kind of a value. -/
theorem C64_kind_is_stable (v x : Value) (k : String) :
    (∀ w, w = (v.set k x).2 ∨ w = (v.push x).2 ∨ w = v.merge x ∨ w = v.cloneMerge x →
      w.isMap = v.isMap ∧ w.isArray = v.isArray ∧ w.isNone = v.isNone) := by
  rintro w (rfl | rfl | rfl | rfl)
  · cases v <;> exact ⟨rfl, rfl, rfl⟩
  · cases v <;> exact ⟨rfl, rfl, rfl⟩
  all_goals
    rcases isMap_cases v with ⟨m, rfl⟩ | hv
    · rcases isMap_cases x with ⟨n, rfl⟩ | hx
      · exact ⟨rfl, rfl, rfl⟩
      · have e : (Value.map m).merge x = .map m := (C05_nonmap_noop _ _ (Or.inr hx))
        first | rw [e]; exact ⟨rfl, rfl, rfl⟩ | (unfold Value.cloneMerge; rw [e]; exact ⟨rfl, rfl, rfl⟩)
    · have e : v.merge x = v := (C05_nonmap_noop _ _ (Or.inl hv))
      first | rw [e]; exact ⟨rfl, rfl, rfl⟩ | (unfold Value.cloneMerge; rw [e]; exact ⟨rfl, rfl, rfl⟩)

example : (exA.merge exB).isMap = true ∧ ((Value.array []).set "k" exA).2.isArray = true :=
  ⟨(C64_kind_is_stable exA exB "k" _ (Or.inr (Or.inr (Or.inl rfl)))).1,
   (C64_kind_is_stable (.array []) exA "k" _ (Or.inl rfl)).2.1⟩

/-! ## C19 -/

theorem valueMapMacro_eq (args : List (String × Value)) :
    valueMapMacro args = some (runSets Value.newMap args) := by
  have : ∀ (l : List (String × Value)) (m : Entries),
      l.foldl (fun acc kv => acc.bind fun m => unwrapUnit (m.set kv.1 kv.2)) (some (Value.map m)) =
        some (runSets (.map m) l) := by
    intro l
    induction l with
    | nil => intro m; rfl
    | cons e l ih =>
      intro m
      simp only [List.foldl_cons, Option.bind_some, Value.set, unwrapUnit, runSets] at ih ⊢
      exact ih _
  exact this args []

/-- **C19.** `value_map!` never panics; each spelled key shows the value of its last occurrence, and no other
key exists. -/
theorem C19_value_map (args : List (String × Value)) :
    ∃ v, valueMapMacro args = some v ∧ v.isMap = true ∧
      (∀ k, HasKey v k ↔ k ∈ args.map Prod.fst) ∧ (∀ k x, lastSet args k = some x → v.get k = x) := by
  refine ⟨_, valueMapMacro_eq args, (C15_set_ok _ rfl args "" .none).1, fun k => ?_, fun k x hx => ?_⟩
  · rw [(C15_keys_after_sets _ rfl args k).1]
    simp [(C15_keys_after_sets Value.newMap rfl args k).2]
  · rw [C15_get_after_sets _ rfl args k, hx]; rfl

/-- **C19.** `value_vec!` never panics and yields the array of exactly the given elements. -/
theorem C19_value_vec (args : List Value) : valueVecMacro args = some (.array args) := by
  have : ∀ (l xs : List Value),
      l.foldl (fun acc x => acc.bind fun a => unwrapUnit (a.push x)) (some (Value.array xs)) =
        some (.array (xs ++ l)) := by
    intro l
    induction l with
    | nil => intro xs; simp
    | cons e l ih =>
      intro xs
      simp only [List.foldl_cons, Option.bind_some, Value.push, unwrapUnit] at ih ⊢
      rw [ih]; simp
  have h := this args []
  rw [List.nil_append] at h
  exact h

/-! ## C20 -/

/-- **C20.** `len` of a map is the number of distinct keys it answers to. -/
theorem C20_len_map (v : Value) (hv : v.isMap = true) (hu : UniqueKeys v) :
    ∃ ks : List String, ks.Nodup ∧ (∀ k, k ∈ ks ↔ HasKey v k) ∧ v.len = ks.length := by
  obtain ⟨m, rfl⟩ := (isMap_cases v).resolve_right (by simp [hv])
  refine ⟨m.map Prod.fst, (uniqueKeys_map.1 hu).1, fun k => ?_, by simp [Value.len]⟩
  rw [← hmGet_isSome]
  unfold HasKey
  rw [view_key_map]
  cases hmGet m k <;> simp [view]

example : ∃ ks : List String, ks.Nodup ∧ (∀ k, k ∈ ks ↔ HasKey exA k) ∧ exA.len = ks.length ∧ exA.len = 2 := by
  obtain ⟨ks, h1, h2, h3⟩ := C20_len_map exA rfl (by simp [exA, UniqueKeys, UniqueKeysMap, UniqueKeysEntry])
  exact ⟨ks, h1, h2, h3, rfl⟩

/-- **C20.** `len` of an array counts its elements, of a string its UTF-8 bytes, and is 0 otherwise. -/
theorem C20_len_other (v : Value) :
    (∀ xs, v = .array xs → v.len = xs.length) ∧ (∀ s, v = .string s → v.len = s.utf8ByteSize) ∧
    (v.isMap = false → v.isArray = false → (∀ s, v ≠ .string s) → v.len = 0) := by
  refine ⟨by rintro xs rfl; rfl, by rintro s rfl; rfl, fun h1 h2 h3 => ?_⟩
  cases v <;> first | rfl | (exact absurd rfl (h3 _)) | (cases h1; done) | (cases h2; done)

example : (Value.string "aé€").len = 6 := by decide

/-- **C20.** `set` grows `len` by one exactly when the key is new; `push` always by one. -/
theorem C20_len_updates (v x : Value) (k : String) :
    (v.isMap = true → (HasKey v k → ((v.set k x).2).len = v.len) ∧
      (¬ HasKey v k → ((v.set k x).2).len = v.len + 1)) ∧
    (v.isArray = true → ((v.push x).2).len = v.len + 1) := by
  constructor
  · intro hv
    obtain ⟨m, rfl⟩ := (isMap_cases v).resolve_right (by simp [hv])
    have e : HasKey (.map m) k ↔ k ∈ m.map Prod.fst := by
      rw [← hmGet_isSome]; unfold HasKey; rw [view_key_map]; cases hmGet m k <;> simp [view]
    rw [e]
    simp only [Value.set, Value.len, length_insert]
    exact ⟨fun h => by rw [if_pos h], fun h => by rw [if_neg h]⟩
  · intro hv
    cases v <;> simp [Value.isArray] at hv
    simp [Value.push, Value.len]

example : (exA.set "z" .none).2.len = 2 ∧ (exA.set "new" .none).2.len = 3 ∧ ((Value.array [exA, exB]).push exA).2.len = 3 :=
  ⟨((C20_len_updates exA .none "z").1 rfl).1 (by unfold HasKey; decide),
   ((C20_len_updates exA .none "new").1 rfl).2 (by unfold HasKey; decide),
   (C20_len_updates (.array [exA, exB]) exA "").2 rfl⟩

/-! ## C21 -/

/-- **C21.** `a == b` iff the values look the same at every path (floats compared as numbers), whatever the
iteration orders of their maps. -/
theorem C21_eq_iff (a b : Value) (ha : UniqueKeys a) (hb : UniqueKeys b) :
    a.rustEq b = true ↔ EqualAsSeen a b := rustEq_iff ha hb

/-- Two iteration orders of one map are equal as seen, because `==` says so; and a value that differs is not. -/
example : EqualAsSeen (.map [("a", .none), ("b", .boolean true)]) (.map [("b", .boolean true), ("a", .none)]) ∧
    ¬ EqualAsSeen exA exB := by
  refine ⟨(C21_eq_iff _ _ ?_ ?_).1 (by decide), fun h => ?_⟩
  · simp [UniqueKeys, UniqueKeysMap, UniqueKeysEntry]
  · simp [UniqueKeys, UniqueKeysMap, UniqueKeysEntry]
  · have := (C21_eq_iff exA exB (by simp [exA, UniqueKeys, UniqueKeysMap, UniqueKeysEntry])
      (by simp [exB, UniqueKeys, UniqueKeysMap, UniqueKeysEntry, UniqueKeysList])).2 h
    exact absurd this (by decide)

theorem numEq_symm {x y : F64} (h : NumEq x y) : NumEq y x := by
  rcases h with ⟨q, h1, h2⟩ | ⟨s, h1, h2⟩
  · exact Or.inl ⟨q, h2, h1⟩
  · exact Or.inr ⟨s, h2, h1⟩

theorem numEq_trans {x y z : F64} (h : NumEq x y) (h' : NumEq y z) : NumEq x z := by
  rcases h with ⟨q, h1, h2⟩ | ⟨s, h1, h2⟩
  · rcases h' with ⟨q', h1', h2'⟩ | ⟨s', h1', h2'⟩
    · rw [h2, Option.some.injEq] at h1'; subst h1'; exact Or.inl ⟨q, h1, h2'⟩
    · rw [h1'] at h2; cases h2
  · rcases h' with ⟨q', h1', h2'⟩ | ⟨s', h1', h2'⟩
    · rw [h2] at h1'; cases h1'
    · rw [h2, FpRaw.inf.injEq] at h1'; subst h1'; exact Or.inr ⟨s, h1, h2'⟩

theorem numEq_self {x : F64} : NumEq x x ↔ x.1 ≠ .nan := by
  obtain ⟨x, hx⟩ := x
  cases x <;> simp [NumEq, ratOf]

theorem headRel_symm {h h' : Head} (e : HeadRel NumEq h h') : HeadRel NumEq h' h := by
  cases h <;> cases h' <;> simp [HeadRel] at e ⊢ <;> first | exact e.symm | exact numEq_symm e

theorem headRel_trans {h h' h'' : Head} (e : HeadRel NumEq h h') (e' : HeadRel NumEq h' h'') :
    HeadRel NumEq h h'' := by
  cases h <;> cases h' <;> simp [HeadRel] at e <;> cases h'' <;> simp [HeadRel] at e' ⊢ <;>
    first | exact e.trans e' | exact numEq_trans e e'

/-- **C21.** `==` is symmetric and transitive, and the verdict does not depend on map order. -/
theorem C21_symm_trans (a b c : Value) (ha : UniqueKeys a) (hb : UniqueKeys b) (hc : UniqueKeys c) :
    (a.rustEq b = b.rustEq a) ∧ (a.rustEq b = true → b.rustEq c = true → a.rustEq c = true) ∧
    (∀ a' b', UniqueKeys a' → UniqueKeys b' → Same a a' → Same b b' → a.rustEq b = a'.rustEq b') := by
  have symm : ∀ {a b : Value}, EqualAsSeen a b → EqualAsSeen b a := by
    intro a b h p
    have := h p
    unfold AgreeAt at this ⊢
    cases h1 : view a p <;> cases h2 : view b p <;> simp [h1, h2] at this ⊢
    exact headRel_symm this
  refine ⟨?_, ?_, ?_⟩
  · rw [Bool.eq_iff_iff, rustEq_iff ha hb, rustEq_iff hb ha]
    exact ⟨symm, symm⟩
  · rw [rustEq_iff ha hb, rustEq_iff hb hc, rustEq_iff ha hc]
    intro h h' p
    have e := h p; have e' := h' p
    unfold AgreeAt at e e' ⊢
    cases h1 : view a p <;> cases h2 : view b p <;> cases h3 : view c p <;> simp [h1, h2, h3] at e e' ⊢
    exact headRel_trans e e'
  · intro a' b' ha' hb' h1 h2
    rw [Bool.eq_iff_iff, rustEq_iff ha hb, rustEq_iff ha' hb']
    refine forall_congr' fun p => ?_
    unfold AgreeAt
    rw [h1 p, h2 p]

/-- **C21.** `v == v.clone()` iff `v` contains no NaN. -/
theorem C21_refl (v : Value) (hu : UniqueKeys v) : v.rustEq v = true ↔ ¬ ContainsNaN v := by
  rw [rustEq_iff hu hu]
  constructor
  · rintro h ⟨p, x, h1, h2⟩
    have := h p
    simp only [AgreeAt, h1, HeadRel] at this
    exact numEq_self.1 this h2
  · intro h p
    unfold AgreeAt
    cases hv : view v p with
    | none => trivial
    | some hd =>
      cases hd <;> simp [HeadRel]
      rename_i x
      exact numEq_self.2 fun h2 => h ⟨p, x, hv, h2⟩

example : (Value.map [("a", .none), ("b", .boolean true)]).rustEq (.map [("b", .boolean true), ("a", .none)]) = true := by
  decide
example : ContainsNaN (.array [.float ⟨.nan, trivial⟩]) := ⟨[.idx 0], _, rfl, rfl⟩
/-- Zero and minus zero are equal. -/
example : (Value.float ⟨.fin false 0 (-1074), by decide⟩).rustEq (.float ⟨.fin true 0 (-1074), by decide⟩) = true := by
  decide

/-! ## C22 (basic API; serialization and conversions are treated with theirs) -/

/-- **C22.** Constructors, `get`, `at`, `set`, `push`, `merge` and the macros never produce a map with a
duplicate key. -/
theorem C22_unique_keys (v w : Value) (hv : UniqueKeys v) (hw : UniqueKeys w) (k : String) (i : Nat) :
    UniqueKeys Value.new ∧ UniqueKeys Value.newMap ∧ UniqueKeys Value.newArray ∧
    (∀ n, UniqueKeys (Value.withArrayCapacity n)) ∧
    UniqueKeys (v.get k) ∧ UniqueKeys (v.at' i) ∧ UniqueKeys (v.set k w).2 ∧ UniqueKeys (v.push w).2 ∧
    UniqueKeys (v.merge w) ∧ UniqueKeys (v.cloneMerge w) := by
  refine ⟨trivial, by simp [Value.newMap, UniqueKeys, UniqueKeysMap], by simp [Value.newArray, UniqueKeys, UniqueKeysList],
    fun n => by simp [Value.withArrayCapacity, UniqueKeys, UniqueKeysList], uniqueKeys_get' hv k, ?_, ?_, ?_,
    uniqueKeys_merge hv hw, uniqueKeys_merge hv hw⟩
  · cases v <;> try trivial
    rename_i xs
    simp only [Value.at']
    cases hx : xs[i]? with
    | none => trivial
    | some x => exact uniqueKeys_array.1 hv x (List.mem_of_getElem? hx)
  · cases v <;> try exact hv
    exact uniqueKeys_insert hv hw
  · cases v <;> try exact hv
    rename_i xs
    simp only [Value.push]
    rw [uniqueKeys_array] at hv ⊢
    intro x hx
    rcases List.mem_append.1 hx with hx | hx
    · exact hv x hx
    · rw [List.mem_singleton.1 hx]; exact hw

example : UniqueKeys (exA.merge exB) ∧ UniqueKeys (exA.set "z" exB).2 :=
  have ha : UniqueKeys exA := by simp [exA, UniqueKeys, UniqueKeysMap, UniqueKeysEntry]
  have hb : UniqueKeys exB := by simp [exB, UniqueKeys, UniqueKeysMap, UniqueKeysEntry, UniqueKeysList]
  ⟨(C22_unique_keys exA exB ha hb "z" 0).2.2.2.2.2.2.2.2.1, (C22_unique_keys exA exB ha hb "z" 0).2.2.2.2.2.2.1⟩

/-- **C22.** The macros: keys given twice are entered once. -/
theorem C22_macros (args : List (String × Value)) (h : ∀ e ∈ args, UniqueKeys e.2) (xs : List Value)
    (hx : ∀ x ∈ xs, UniqueKeys x) :
    (∀ v, valueMapMacro args = some v → UniqueKeys v) ∧ (∀ v, valueVecMacro xs = some v → UniqueKeys v) := by
  constructor
  · intro v hv
    rw [valueMapMacro_eq, Option.some.injEq] at hv
    subst hv
    have : ∀ (l : List (String × Value)) (v : Value), UniqueKeys v → (∀ e ∈ l, UniqueKeys e.2) → UniqueKeys (runSets v l) := by
      intro l
      induction l with
      | nil => intro v hv _; exact hv
      | cons e l ih =>
        intro v hv hl
        exact ih _ (C22_unique_keys v e.2 hv (hl e List.mem_cons_self) e.1 0).2.2.2.2.2.2.1
          (fun e' he => hl e' (List.mem_cons_of_mem _ he))
    exact this args _ (by simp [Value.newMap, UniqueKeys, UniqueKeysMap]) h
  · intro v hv
    rw [C19_value_vec, Option.some.injEq] at hv
    subst hv
    exact uniqueKeys_array.2 hx

example : ∀ v, valueMapMacro [("a", exA), ("b", .none), ("a", exB)] = some v → UniqueKeys v :=
  (C22_macros [("a", exA), ("b", .none), ("a", exB)] (by
    simp [exA, exB, UniqueKeys, UniqueKeysMap, UniqueKeysEntry, UniqueKeysList]) [] (by simp)).1

end Verif.Props
