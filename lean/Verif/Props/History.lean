import Verif.Spec.History
import Verif.Props.Config
import Verif.Props.Convert
import Verif.Props.Serde
import Verif.Props.Protocol
/-!
# Values a program can hold (C22)
-/
namespace Verif.Props
open Spec

theorem uniqueKeys_deValue {v : Value} (hv : UniqueKeys v) {x : Value} (h : deValue v = .ok x) : UniqueKeys x := by
  rw [deValue_ok v hv] at h; cases h; exact hv

/-- **C22.** Whatever a program does with the API, no value it gets holds a map with a duplicate key, at any depth. -/
theorem C22_every_history (v : Value) (h : Obtained v) : UniqueKeys v := by
  induction h with
  | new => trivial
  | newMap => exact (C22_unique_keys .none .none trivial trivial "" 0).2.1
  | newArray => exact (C22_unique_keys .none .none trivial trivial "" 0).2.2.1
  | withCapacity n => exact (C22_unique_keys .none .none trivial trivial "" 0).2.2.2.1 n
  | fromInt t n => cases t <;> trivial
  | fromF32 => trivial
  | fromF64 => trivial
  | fromBool => trivial
  | fromString => trivial
  | fromOption f o _ ih =>
    cases o with
    | none => trivial
    | some a => exact ih a rfl
  | fromVec f xs _ ih =>
    rw [Value.ofVec, uniqueKeys_array]
    intro v hv
    obtain ⟨a, ha, rfl⟩ := List.mem_map.1 hv
    exact ih a ha
  | fromHashMap f m _ ih =>
    refine uniqueKeys_foldl_insert _ [] (uniqueKeys_map.2 ⟨List.nodup_nil, by simp⟩) ?_
    intro e he
    obtain ⟨a, ha, rfl⟩ := List.mem_map.1 he
    exact ih a ha
  | get k _ ih => exact (C22_unique_keys _ .none ih trivial k 0).2.2.2.2.1
  | at' i _ ih => exact (C22_unique_keys _ .none ih trivial "" i).2.2.2.2.2.1
  | set k _ _ ih1 ih2 => exact (C22_unique_keys _ _ ih1 ih2 k 0).2.2.2.2.2.2.1
  | push _ _ ih1 ih2 => exact (C22_unique_keys _ _ ih1 ih2 "" 0).2.2.2.2.2.2.2.1
  | merge _ _ ih1 ih2 => exact uniqueKeys_merge ih1 ih2
  | cloneMerge _ _ ih1 ih2 => exact uniqueKeys_merge ih1 ih2
  | valueMap args _ h ih => exact (C22_macros args ih [] (by simp)).1 _ h
  | valueVec args _ h ih => exact (C22_macros [] (by simp) args ih).2 _ h
  | @iterated v x n _ hx ih =>
    obtain ⟨i, hi⟩ := List.mem_iff_getElem?.1 hx
    have hlt : i < n := by
      have h1 : i < (ValueIter.take n v.iter).length := (List.getElem?_eq_some_iff.1 hi).1
      have h2 : ∀ n it, (ValueIter.take n it).length = n := by
        intro n; induction n with
        | zero => intro it; rfl
        | succ n ih => intro it; simp [ValueIter.take, ih]
      rw [h2] at h1; exact h1
    rw [C17_iter v n i hlt] at hi
    split at hi
    · simp only [Option.some.injEq] at hi; subst hi
      exact (C22_unique_keys _ .none ih trivial "" i).2.2.2.2.2.1
    · cases hi
  | serialized d h => exact uniqueKeys_ser d _ h
  | handSerializedMap cs st h _ _ ihv ihf =>
    obtain ⟨-, h2, m, em, hn⟩ := C68_result cs st h
    rw [em, uniqueKeys_map]
    refine ⟨hn, fun e he => ?_⟩
    have h3 : child st.finish (.key e.1) = some e.2 := by
      rw [em, child_key_map]; exact hmGet_of_mem hn he
    obtain ⟨i, hw | hw, -⟩ := (h2 _ _).1 h3
    · exact ihv _ (List.mem_of_getElem? hw.1)
    · exact ihf _ _ (List.mem_of_getElem? hw)
  | handSerializedSeq size cs h _ ih =>
    rcases C68_elements size cs with ⟨_, h'⟩ | ⟨_, h'⟩
    · rw [h] at h'; cases h'
    · rw [h] at h'; cases h'
      rw [uniqueKeys_array]
      intro x hx
      obtain ⟨c, hc, hcx⟩ := List.mem_filterMap.1 hx
      cases c with
      | ok y => simp at hcx; subst hcx; exact ih _ hc
      | err e => simp at hcx
      | panic => simp at hcx
  | deserialized _ h ih => exact uniqueKeys_deValue ih h
  | parsed d h => exact uniqueKeys_visit d _ h
  | built b fm calls w skip _ _ h ihm ihl =>
    refine (C08_map b fm calls w skip _ h).2 ?_
    intro e he
    obtain ⟨c, hc, ho⟩ := List.mem_filterMap.1 (mem_firsts he)
    cases c with
    | layer n l => cases ho; exact fun w x hx => ihl n l hc w x hx
    | file n p => exact C08_builtin_proper b fm (.file n p) e trivial (by rintro _ _ ⟨⟩) ho
    | environment n p => exact C08_builtin_proper b fm (.environment n p) e trivial (by rintro _ _ ⟨⟩) ho
    | memory n x => exact C08_builtin_proper b fm (.memory n x) e trivial (by rintro _ _ h; cases h; exact ihm n x hc) ho

/-- A history that uses a macro, `set`, `merge` and a configuration. -/
example : ∃ v, Obtained v ∧ v.isMap = true ∧ v.get "k" = .string "b" ∧ v.len = 2 := by
  refine ⟨_, .built exB1 exFormats [.memory "m" (.map [("k", .string "a"), ("l", .none)]), .memory "n" (.map [("k", .string "b")])] exDisk true ?_ ?_ rfl, rfl, rfl, rfl⟩
  · intro n x hx
    simp at hx
    rcases hx with ⟨-, rfl⟩ | ⟨-, rfl⟩
    · exact .valueMap [("k", .string "a"), ("l", .none)] (by simp; exact ⟨.fromString "a", .new⟩) rfl
    · exact .set (v := Value.newMap) "k" .newMap (.fromString "b")
  · intro n l hl; simp at hl

end Verif.Props
