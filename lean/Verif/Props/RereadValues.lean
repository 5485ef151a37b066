import Verif.Props.Reread
/-!
# C118 for settings that hold a `Value`
-/
namespace Verif.Props
open Verif Verif.Spec

theorem no128_key {m : Entries} (hu : UniqueKeys (.map m)) (h : No128 (.map m)) {e : String × Value} (he : e ∈ m) : No128 e.2 := by
  intro p
  have := h (.key e.1 :: p)
  rw [view, child_key_map, hmGet_of_mem' (uniqueKeys_map.1 hu).1 he] at this
  exact this

/-- What was read from a value without 128-bit integers can be serialized. -/
theorem serializable_de {refs : Nat → Decoder}
    (hrefs : ∀ n v d, UniqueKeys v → No128 v → refs n v = .ok d → Serializable d) (t : Ty) :
    Survives t → ∀ v d, UniqueKeys v → No128 v → de refs t v = .ok d → Serializable d := by
  have tup : ∀ {ts : List Ty}, (∀ t ∈ ts, ∀ v d, UniqueKeys v → No128 v → de refs t v = .ok d → Serializable d) → ∀ {xs : List Value} {ds : List Data},
      UniqueKeys (.array xs) → No128 (.array xs) → ts.length ≤ xs.length → ds.length = ts.length →
      (∀ (i : Nat) t x y, ts[i]? = some t → xs[i]? = some x → ds[i]? = some y → de refs t x = .ok y) → ∀ d ∈ ds, Serializable d := by
    intro ts ih xs ds hu hz hl hl2 h d hd
    obtain ⟨i, hi⟩ := List.mem_iff_getElem?.1 hd
    obtain ⟨t, ht⟩ := get_of_lt (show i < ts.length by rw [← hl2]; exact lt_of_get hi)
    obtain ⟨x, hx⟩ := get_of_lt (show i < xs.length by have := lt_of_get ht; omega)
    exact ih t (List.mem_of_getElem? ht) x d (uniqueKeys_array.1 hu x (List.mem_of_getElem? hx)) (no128_array.1 hz x (List.mem_of_getElem? hx)) (h i t x d ht hx hi)
  induction t using Ty.ind with
  | bool => intro _ v d _ _ h; rw [de] at h; obtain ⟨x, -, h⟩ := bind_eq_ok.1 h; cases h; exact .bool x
  | int t => intro hs v d _ _ h; rw [de] at h; obtain ⟨x, -, h⟩ := bind_eq_ok.1 h; cases h; cases hs with | int hs => exact .int x hs
  | f32 => intro _ v d _ _ h; rw [de] at h; obtain ⟨x, -, h⟩ := bind_eq_ok.1 h; cases h; exact .f32 _
  | f64 => intro _ v d _ _ h; rw [de] at h; obtain ⟨x, -, h⟩ := bind_eq_ok.1 h; cases h; exact .f64 x
  | char => intro _ v d _ _ h; rw [de] at h; obtain ⟨x, -, h⟩ := bind_eq_ok.1 h; cases h; exact .char x
  | string => intro _ v d _ _ h; rw [de] at h; obtain ⟨x, -, h⟩ := bind_eq_ok.1 h; cases h; exact .str x
  | unit => intro _ v d _ _ h; cases v <;> simp only [de, reduceCtorEq, Outcome.ok.injEq] at h; rw [← h]; exact .unit
  | unitStruct => intro _ v d _ _ h; cases v <;> simp only [de, reduceCtorEq, Outcome.ok.injEq] at h; rw [← h]; exact .unitStruct
  | value =>
    intro _ v d hu hz h
    rw [de, deValue_ok v hu] at h
    cases h
    rcases serializeValue_cases v hu with ⟨-, h⟩ | ⟨h, -⟩
    · exact (ser_ok_iff _).1 ⟨_, h⟩
    · exact absurd hz h
  | bytes | enum => intro _ v d _ _ h; rw [de] at h; cases h
  | option t ih =>
    intro hw v d hu hz h
    cases hw with
    | option hw _ =>
    by_cases hv : v = .none
    · subst hv
      simp only [de, Outcome.ok.injEq] at h
      rw [← h]; exact .none
    · rw [de] at h
      · obtain ⟨x, hx, h⟩ := bind_eq_ok.1 h
        cases h
        exact .some (ih hw v x hu hz hx)
      · exact fun e => absurd e hv
  | newtype t ih =>
    intro hw v d hu hz h
    cases hw with
    | newtype hw =>
    rw [de] at h
    obtain ⟨x, hx, h⟩ := bind_eq_ok.1 h
    cases h
    exact .newtypeStruct (ih hw v x hu hz hx)
  | seq t ih =>
    intro hw v d hu hz h
    cases hw with
    | seq hw =>
    have : ∃ xs, v = .array xs := by cases v <;> simp only [de, reduceCtorEq] at h; exact ⟨_, rfl⟩
    obtain ⟨xs, rfl⟩ := this
    obtain ⟨ds, rfl, l1, h1⟩ := (de_seq_ok _ _ _ _).1 h
    refine .seq fun d hd => ?_
    obtain ⟨i, hi⟩ := List.mem_iff_getElem?.1 hd
    obtain ⟨x, hx⟩ := get_of_lt (show i < xs.length by have := lt_of_get hi; omega)
    exact ih hw x d (uniqueKeys_array.1 hu x (List.mem_of_getElem? hx)) (no128_array.1 hz x (List.mem_of_getElem? hx)) (h1 i x d hx hi)
  | tuple ts ih =>
    intro hw v d hu hz h
    cases hw with
    | tuple hw =>
    have : ∃ xs, v = .array xs := by cases v <;> simp only [de, reduceCtorEq] at h; exact ⟨_, rfl⟩
    obtain ⟨xs, rfl⟩ := this
    obtain ⟨ds, rfl, l1, l2, h1⟩ := (de_tuple_ok _ _ _ _).1 h
    exact .tuple (tup (fun t ht => ih t ht (hw t ht)) hu hz l1 l2 h1)
  | tupleStruct ts ih =>
    intro hw v d hu hz h
    cases hw with
    | tupleStruct hw =>
    have : ∃ xs, v = .array xs := by cases v <;> simp only [de, reduceCtorEq] at h; exact ⟨_, rfl⟩
    obtain ⟨xs, rfl⟩ := this
    obtain ⟨ds, rfl, l1, l2, h1⟩ := (de_tupleStruct_ok _ _ _ _).1 h
    exact .tupleStruct (tup (fun t ht => ih t ht (hw t ht)) hu hz l1 l2 h1)
  | map kt t ih =>
    intro hw v d hu hz h
    cases hw with
    | map hg hw =>
    have : ∃ m, v = .map m := by cases v <;> simp only [de, reduceCtorEq] at h; exact ⟨_, rfl⟩
    obtain ⟨m, rfl⟩ := this
    rw [de] at h
    obtain ⟨es, hes, h⟩ := bind_eq_ok.1 h
    cases h
    obtain ⟨h1, h2, h3⟩ := mapLoop_get m [] es (by simp) hes
    refine .map (fun e he => ?_) (fun e he => ?_) (fun e he => ?_) <;> obtain ⟨e, he', rfl⟩ := List.mem_map.1 he
    · cases hk' : e.1 <;> constructor
    · rw [← ser_ok_iff]
      have hk : KeyHasType kt e.1 := by
        rcases h2 e.1 (List.mem_map_of_mem he') with h | ⟨x, -, h⟩
        · simp at h
        · exact denotes_type h
      obtain ⟨kx, h2, _⟩ := ser_keyText hg hk
      exact ⟨kx, h2⟩
    · rcases (h3 e.1 e.2).1 (keyGet_of_mem h1 he') with ⟨before, s, y, after, rfl, -, hy, -⟩ | ⟨-, h⟩
      · exact ih hw y e.2 ((uniqueKeys_map.1 hu).2 (s, y) (by simp)) (no128_key hu hz (e := (s, y)) (by simp)) hy
      · cases h
  | struct fs ih =>
    intro hw v d hu hz h
    cases hw with
    | struct hn hw =>
    obtain ⟨m, rfl⟩ := struct_map h
    have hum := uniqueKeys_map.1 hu
    obtain ⟨ds, rfl, h1⟩ := (de_struct_ok _ _ hn _ hum.1 _).1 h
    obtain ⟨l1, h2⟩ := forall2_index h1
    refine .struct fun d hd => ?_
    obtain ⟨i, hi⟩ := List.mem_iff_getElem?.1 hd
    have l0 : ds.length = fs.length := by simpa using congrArg List.length (fields_of h1).1
    obtain ⟨f, hf⟩ := get_of_lt (show i < fs.length by rw [← l0]; exact lt_of_get hi)
    have h3 := (h2 i f d hf hi).2
    cases hg : hmGet m f.1 with
    | none =>
      rw [hg] at h3
      obtain ⟨e, u, e2⟩ := missing_cases h3
      rw [e]; exact .none
    | some x =>
      rw [hg] at h3
      exact ih f (List.mem_of_getElem? hf) (hw f (List.mem_of_getElem? hf)) x d.2 (hum.2 _ (hmGet_mem hg)) (no128_key hu hz (hmGet_mem hg)) h3
  | ref n => intro _ v d hu hz h; rw [de] at h; exact hrefs n v d hu hz h

/-- **C118.** Settings with a `Value` inside that were read from a value without 128-bit integers can be serialized again too, and reading the result — in whatever order the hash maps
hold it — gives the same settings. The result has no keys but those of the type. -/
theorem C118_values (structs : Nat → List (String × Ty)) (hs : ∀ n, Survives (.struct (structs n)))
    (T : Ty) (hT : Survives T) (k : Nat) (v : Value) (hu : UniqueKeys v) (hz : ¬ Holds128 v) (d : Data) (hd : deAt structs k T v = .ok d) :
    ∃ v', ser d = .ok v' ∧ UniqueKeys v' ∧ OnlyKnown structs T v' ∧ ∀ v'', Same v' v'' → UniqueKeys v'' →
      ∃ k0, ∀ j, k0 ≤ j → ∃ d', deAt structs j T v'' = .ok d' ∧ DSame d d' := by
  have hw := fun n => wellFormed_of_survives (hs n)
  have ht := C118_typed structs hw T (wellFormed_of_survives hT) k v hu d hd
  have refs : ∀ k n v d, UniqueKeys v → No128 v → refsAt structs k n v = .ok d → Serializable d := by
    intro k
    induction k with
    | zero => intro n v d _ _ h; cases h
    | succ k ih =>
      intro n v d hu hz h
      exact serializable_de ih _ (hs n) v d hu hz h
  have hser : Serializable d := serializable_de (refs k) T hT v d hu ((no128_iff v).2 hz) hd
  obtain ⟨v', hv'⟩ := (ser_ok_iff d).2 hser
  exact ⟨v', hv', uniqueKeys_ser d v' hv', onlyKnown_ser hs ht hT v' hv', back hs ht hT v' hv'⟩

/-- Settings with a map of whatever the user put there. -/
def exExtra : List (String × Ty) := [("a", .string), ("extra", .value)]

theorem exExtra_survives : Survives (.struct exExtra) := by
  refine .struct (by decide) fun f hf => ?_
  simp only [exExtra, List.mem_cons, List.not_mem_nil, or_false] at hf
  rcases hf with rfl | rfl
  · exact .string
  · exact .value

/-- They are read, serialized and read again. With a 128-bit integer among them they are read, but not serialized. -/
example : (∃ d v', deAt (fun _ => []) 0 (.struct exExtra) (.map [("a", .string "x"), ("extra", .map [("n", .boolean true)]), ("z", .none)]) = .ok d ∧ ser d = .ok v' ∧
      OnlyKnown (fun _ => []) (.struct exExtra) v' ∧ ∃ k0, ∀ j, k0 ≤ j → ∃ d', deAt (fun _ => []) j (.struct exExtra) v' = .ok d' ∧ DSame d d') ∧
    ∃ d msg, deAt (fun _ => []) 0 (.struct exExtra) (.map [("a", .string "x"), ("extra", .map [("n", .uLongInteger ⟨3, by decide⟩)])]) = .ok d ∧ ser d = .err (.serializationError msg) := by
  refine ⟨?_, _, _, rfl, rfl⟩
  have hd : deAt (fun _ => []) 0 (.struct exExtra) (.map [("a", .string "x"), ("extra", .map [("n", .boolean true)]), ("z", .none)]) = .ok (.struct [("a", .str "x"), ("extra", .map [(.str "n", .bool true)])]) := rfl
  have hz : No128 (.map [("a", .string "x"), ("extra", .map [("n", .boolean true)]), ("z", .none)]) := by
    have := serializeValue_cases (.map [("a", .string "x"), ("extra", .map [("n", .boolean true)]), ("z", .none)]) (by simp [UniqueKeys, UniqueKeysMap, UniqueKeysEntry])
    rcases this with ⟨h, -⟩ | ⟨-, msg, h⟩
    · exact h
    · cases h
  obtain ⟨v', h1, h2, h3, h4⟩ := C118_values (fun _ => []) (fun _ => .struct (by simp) (by simp)) (.struct exExtra) exExtra_survives 0 _ (by simp [UniqueKeys, UniqueKeysMap, UniqueKeysEntry])
    ((no128_iff _).1 hz) _ hd
  exact ⟨_, v', hd, h1, h3, h4 v' (fun _ => rfl) h2⟩

end Verif.Props
