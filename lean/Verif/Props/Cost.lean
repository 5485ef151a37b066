import Verif.Spec.Cost
import Verif.Lemmas.Merge2
import Verif.Lemmas.Config
import Verif.Lemmas.ValueInd
import Verif.Props.Config
/-!
# C126: the work of merging and building
-/
namespace Verif.Props
open Spec

/-! ## The traced merge is the merge -/

mutual
theorem mergeT_fst (other : Value) : ∀ (path : List String) (self : Value), (self.mergeT path other).1 = self.merge other := by
  intro path self
  match other with
  | .map rhs =>
    cases self <;> simp only [Value.mergeT, Value.merge]
    rw [mergeEntriesT_fst]
  | .none | .boolean _ | .integer _ | .longInteger _ | .uInteger _ | .uLongInteger _ | .float _ | .string _ | .array _ =>
    simp only [Value.mergeT, Value.merge]
  termination_by structural other
theorem mergeEntriesT_fst (rhs : List (String × Value)) : ∀ (path : List String) (lhs : Entries), (mergeEntriesT path lhs rhs).1 = mergeEntries lhs rhs := by
  intro path lhs
  match rhs with
  | [] => rfl
  | e :: rest => rw [mergeEntriesT, mergeEntries, mergeEntryT_fst e, mergeEntriesT_fst rest]
  termination_by structural rhs
theorem mergeEntryT_fst (e : String × Value) : ∀ (path : List String) (lhs : Entries), (mergeEntryT path lhs e).1 = mergeEntry lhs e := by
  intro path lhs
  match e with
  | (key, value) =>
    simp only [mergeEntryT, mergeEntry]
    cases hmGet lhs key with
    | none => rfl
    | some lv =>
      simp only []
      split
      · rw [mergeT_fst value]
      · rfl
  termination_by structural e
end

/-- What is done for one entry of the overlay, given what the receiver has there. -/
def entryEvents (path : List String) (old : Option Value) (e : String × Value) : List MergeEvent :=
  match old with
  | some l => if l.isMap && e.2.isMap then .lookup (path ++ [e.1]) :: (l.mergeT (path ++ [e.1]) e.2).2
      else [.lookup (path ++ [e.1]), .insert (path ++ [e.1]) e.2]
  | none => [.lookup (path ++ [e.1]), .insert (path ++ [e.1]) e.2]

theorem mergeEntryT_snd (path : List String) (lhs : Entries) (e : String × Value) : (mergeEntryT path lhs e).2 = entryEvents path (hmGet lhs e.1) e := by
  obtain ⟨k, v⟩ := e
  simp only [mergeEntryT, entryEvents]
  cases hmGet lhs k with
  | none => rfl
  | some l => simp only []; split <;> rfl

theorem hmGet_mergeEntry_ne {lhs : Entries} {e : String × Value} {k : String} (h : e.1 ≠ k) : hmGet (mergeEntry lhs e) k = hmGet lhs k := by
  obtain ⟨j, v⟩ := e
  simp only [mergeEntry]
  cases hmGet lhs j with
  | none => rw [hmGet_insert, if_neg h]
  | some l => simp only []; split <;> rw [hmGet_insert, if_neg h]

theorem mergeEntriesT_snd (path : List String) (rhs : Entries) : ∀ lhs, (rhs.map Prod.fst).Nodup →
    (mergeEntriesT path lhs rhs).2 = rhs.flatMap fun e => entryEvents path (hmGet lhs e.1) e := by
  induction rhs with
  | nil => intro lhs _; rfl
  | cons e rest ih =>
    intro lhs hn
    simp only [List.map_cons, List.nodup_cons] at hn
    rw [mergeEntriesT, List.flatMap_cons, mergeEntryT_snd, ih _ hn.2, mergeEntryT_fst]
    congr 1
    simp only [List.flatMap]
    congr 2
    apply List.map_congr_left
    intro d hd
    have : e.1 ≠ d.1 := fun h => hn.1 (h ▸ List.mem_map_of_mem hd)
    rw [hmGet_mergeEntry_ne this]

theorem mergeT_nonmap {a b : Value} (h : ¬ (a.isMap = true ∧ b.isMap = true)) (path : List String) : (a.mergeT path b).2 = [] := by
  cases b <;> try rfl
  cases a <;> try rfl
  exact absurd ⟨rfl, rfl⟩ h

theorem view_keys_cons {m : Entries} {k : String} {q : List String} {h : Head} (hv : view (.map m) (keys (k :: q)) = some h) :
    ∃ x, hmGet m k = some x ∧ view x (keys q) = some h := by
  rw [keys_cons, view_key_map] at hv
  cases hg : hmGet m k with
  | none => rw [hg] at hv; cases hv
  | some x => rw [hg] at hv; exact ⟨x, rfl, hv⟩

/-- At `q` both values have a map. -/
def BothMaps (a b : Value) (q : List String) : Prop := view a (keys q) = some .map ∧ view b (keys q) = some .map

theorem bothMaps_cons {l r : Entries} {k : String} {q : List String} :
    BothMaps (.map l) (.map r) (k :: q) ↔ ∃ x y, hmGet l k = some x ∧ hmGet r k = some y ∧ BothMaps x y q := by
  constructor
  · rintro ⟨h1, h2⟩
    obtain ⟨x, hx, h1⟩ := view_keys_cons h1
    obtain ⟨y, hy, h2⟩ := view_keys_cons h2
    exact ⟨x, y, hx, hy, h1, h2⟩
  · rintro ⟨x, y, hx, hy, h1, h2⟩
    exact ⟨by rw [keys_cons, view_key_map, hx]; exact h1, by rw [keys_cons, view_key_map, hy]; exact h2⟩

theorem bothMaps_isMap {a b : Value} {q : List String} (h : BothMaps a b q) : a.isMap = true ∧ b.isMap = true :=
  ⟨isMap_of_view_keys h.1, isMap_of_view_keys h.2⟩

theorem lookup_iff (b : Value) : UniqueKeys b → ∀ (a : Value) (path p : List String),
    MergeEvent.lookup p ∈ (a.mergeT path b).2 ↔ ∃ q k, p = path ++ q ++ [k] ∧ BothMaps a b q ∧ view b (keys (q ++ [k])) ≠ none := by
  induction b using Value.ind with
  | map r ih =>
    intro hu a path p
    rcases isMap_cases a with ⟨l, rfl⟩ | ha
    · obtain ⟨hn, hus⟩ := uniqueKeys_map.1 hu
      have hev : (Value.mergeT path (.map l) (.map r)).2 = r.flatMap fun e => entryEvents path (hmGet l e.1) e := by
        rw [Value.mergeT]; exact mergeEntriesT_snd path r l hn
      rw [hev, List.mem_flatMap]
      constructor
      · rintro ⟨e, he, hm⟩
        have hg : hmGet r e.1 = some e.2 := hmGet_of_mem hn he
        have first : p = path ++ [e.1] → ∃ q k, p = path ++ q ++ [k] ∧ BothMaps (.map l) (.map r) q ∧ view (.map r) (keys (q ++ [k])) ≠ none :=
          fun h => ⟨[], e.1, by simpa using h, ⟨rfl, rfl⟩, by rw [List.nil_append, keys_cons, view_key_map, hg]; simp [keys, view]⟩
        unfold entryEvents at hm
        split at hm
        · rename_i x hx
          split at hm
          · rcases List.mem_cons.1 hm with h | h
            · cases h; exact first rfl
            · obtain ⟨q, k, rfl, hb, hv⟩ := (ih e he (hus e he) x (path ++ [e.1]) p).1 h
              exact ⟨e.1 :: q, k, by simp, bothMaps_cons.2 ⟨x, e.2, hx, hg, hb⟩, by rw [List.cons_append, keys_cons, view_key_map, hg]; exact hv⟩
          · simp only [List.mem_cons, MergeEvent.lookup.injEq, List.not_mem_nil, or_false, reduceCtorEq] at hm
            exact first hm
        · simp only [List.mem_cons, MergeEvent.lookup.injEq, List.not_mem_nil, or_false, reduceCtorEq] at hm
          exact first hm
      · rintro ⟨q, k, rfl, hb, hv⟩
        cases q with
        | nil =>
          rw [List.nil_append, keys_cons, view_key_map] at hv
          cases hg : hmGet r k with
          | none => rw [hg] at hv; exact absurd rfl hv
          | some x =>
            refine ⟨(k, x), hmGet_mem hg, ?_⟩
            unfold entryEvents
            split
            · split <;> simp
            · simp
        | cons k0 q =>
          obtain ⟨x, y, hx, hy, hb'⟩ := bothMaps_cons.1 hb
          refine ⟨(k0, y), hmGet_mem hy, ?_⟩
          obtain ⟨m1, m2⟩ := bothMaps_isMap hb'
          unfold entryEvents
          simp only [hx, m1, m2, Bool.and_self, if_true]
          refine List.mem_cons_of_mem _ ((ih _ (hmGet_mem hy) (hus _ (hmGet_mem hy)) x _ _).2 ⟨q, k, by simp, hb', ?_⟩)
          rw [List.cons_append, keys_cons, view_key_map, hy] at hv
          exact hv
    · rw [mergeT_nonmap (by simp [ha])]
      refine ⟨fun h => (nomatch h), fun ⟨q, k, _, hb, _⟩ => ?_⟩
      rw [(bothMaps_isMap hb).1] at ha; cases ha
  | _ =>
    intro _ a path p
    rw [mergeT_nonmap (by simp [Value.isMap])]
    refine ⟨fun h => (nomatch h), fun ⟨q, k, _, hb, _⟩ => ?_⟩
    have := (bothMaps_isMap hb).2
    cases this

theorem insert_iff (b : Value) : UniqueKeys b → ∀ (a : Value) (path p : List String) (z : Value),
    MergeEvent.insert p z ∈ (a.mergeT path b).2 ↔ ∃ q k, p = path ++ q ++ [k] ∧ BothMaps a b q ∧ ¬ BothMaps a b (q ++ [k]) ∧
      view b (keys (q ++ [k])) ≠ none ∧ z = (q ++ [k]).foldl Value.get b := by
  induction b using Value.ind with
  | map r ih =>
    intro hu a path p z
    rcases isMap_cases a with ⟨l, rfl⟩ | ha
    · obtain ⟨hn, hus⟩ := uniqueKeys_map.1 hu
      have hev : (Value.mergeT path (.map l) (.map r)).2 = r.flatMap fun e => entryEvents path (hmGet l e.1) e := by
        rw [Value.mergeT]; exact mergeEntriesT_snd path r l hn
      have hget : ∀ k x, hmGet r k = some x → (Value.map r).get k = x := fun k x h => by simp [Value.get, h]
      rw [hev, List.mem_flatMap]
      constructor
      · rintro ⟨e, he, hm⟩
        have hg : hmGet r e.1 = some e.2 := hmGet_of_mem hn he
        have first : (∀ x, hmGet l e.1 = some x → ¬ (x.isMap = true ∧ e.2.isMap = true)) → p = path ++ [e.1] ∧ z = e.2 →
            ∃ q k, p = path ++ q ++ [k] ∧ BothMaps (.map l) (.map r) q ∧ ¬ BothMaps (.map l) (.map r) (q ++ [k]) ∧
              view (.map r) (keys (q ++ [k])) ≠ none ∧ z = (q ++ [k]).foldl Value.get (.map r) := by
          rintro hno ⟨h1, h2⟩
          refine ⟨[], e.1, by simpa using h1, ⟨rfl, rfl⟩, fun hb => ?_, by rw [List.nil_append, keys_cons, view_key_map, hg]; simp [keys, view], ?_⟩
          · obtain ⟨x, y, hx, hy, hb⟩ := bothMaps_cons.1 hb
            rw [hg] at hy; cases hy
            exact hno x hx (bothMaps_isMap hb)
          · rw [h2]; exact (hget _ _ hg).symm
        unfold entryEvents at hm
        split at hm
        · rename_i x hx
          split at hm
          · rcases List.mem_cons.1 hm with h | h
            · cases h
            · obtain ⟨q, k, rfl, hb, hnb, hv, rfl⟩ := (ih e he (hus e he) x (path ++ [e.1]) p z).1 h
              refine ⟨e.1 :: q, k, by simp, bothMaps_cons.2 ⟨x, e.2, hx, hg, hb⟩, fun hb' => ?_,
                by rw [List.cons_append, keys_cons, view_key_map, hg]; exact hv, by rw [List.cons_append, List.foldl_cons, hget _ _ hg]⟩
              rw [List.cons_append] at hb'
              obtain ⟨x', y', hx', hy', hb'⟩ := bothMaps_cons.1 hb'
              rw [hx] at hx'; cases hx'
              rw [hg] at hy'; cases hy'
              exact hnb hb'
          · rename_i hc
            simp only [List.mem_cons, MergeEvent.insert.injEq, List.not_mem_nil, or_false, reduceCtorEq, false_or] at hm
            refine first (fun x' hx' hh => hc ?_) hm
            rw [hx] at hx'; cases hx'
            simp [hh.1, hh.2]
        · rename_i hx
          simp only [List.mem_cons, MergeEvent.insert.injEq, List.not_mem_nil, or_false, reduceCtorEq, false_or] at hm
          exact first (fun x' hx' => by rw [hx] at hx'; cases hx') hm
      · rintro ⟨q, k, rfl, hb, hnb, hv, rfl⟩
        cases q with
        | nil =>
          rw [List.nil_append, keys_cons, view_key_map] at hv
          cases hg : hmGet r k with
          | none => rw [hg] at hv; exact absurd rfl hv
          | some x =>
            refine ⟨(k, x), hmGet_mem hg, ?_⟩
            have hz : ([] ++ [k] : List String).foldl Value.get (.map r) = x := hget k x hg
            rw [hz]
            unfold entryEvents
            split
            · rename_i y hy
              split
              · rename_i hc
                refine absurd (bothMaps_cons.2 ⟨y, x, hy, hg, ?_⟩) hnb
                simp only [Bool.and_eq_true] at hc
                exact ⟨by simpa [keys, view] using head_map_iff.2 hc.1, by simpa [keys, view] using head_map_iff.2 hc.2⟩
              · simp
            · simp
        | cons k0 q =>
          obtain ⟨x, y, hx, hy, hb'⟩ := bothMaps_cons.1 hb
          refine ⟨(k0, y), hmGet_mem hy, ?_⟩
          obtain ⟨m1, m2⟩ := bothMaps_isMap hb'
          unfold entryEvents
          simp only [hx, m1, m2, Bool.and_self, if_true]
          refine List.mem_cons_of_mem _ ((ih _ (hmGet_mem hy) (hus _ (hmGet_mem hy)) x _ _ _).2 ⟨q, k, by simp, hb', fun hb2 => ?_, ?_, ?_⟩)
          · exact hnb (bothMaps_cons.2 ⟨x, y, hx, hy, hb2⟩)
          · rw [List.cons_append, keys_cons, view_key_map, hy] at hv
            exact hv
          · rw [List.cons_append, List.foldl_cons, hget _ _ hy]
    · rw [mergeT_nonmap (by simp [ha])]
      refine ⟨fun h => (nomatch h), fun ⟨q, k, _, hb, _⟩ => ?_⟩
      rw [(bothMaps_isMap hb).1] at ha; cases ha
  | _ =>
    intro _ a path p z
    rw [mergeT_nonmap (by simp [Value.isMap])]
    refine ⟨fun h => (nomatch h), fun ⟨q, k, _, hb, _⟩ => ?_⟩
    have := (bothMaps_isMap hb).2
    cases this

/-- The path of an operation. -/
def MergeEvent.path : MergeEvent → List String
  | .lookup p => p
  | .insert p _ => p

theorem event_prefix {a b : Value} (hu : UniqueKeys b) {path : List String} {ev : MergeEvent} (h : ev ∈ (a.mergeT path b).2) :
    ∃ k q, MergeEvent.path ev = path ++ k :: q := by
  cases ev with
  | lookup p =>
    obtain ⟨q, k, rfl, -⟩ := (lookup_iff b hu a path p).1 h
    cases q with
    | nil => exact ⟨k, [], by simp [MergeEvent.path]⟩
    | cons j q => exact ⟨j, q ++ [k], by simp [MergeEvent.path]⟩
  | insert p z =>
    obtain ⟨q, k, rfl, -⟩ := (insert_iff b hu a path p z).1 h
    cases q with
    | nil => exact ⟨k, [], by simp [MergeEvent.path]⟩
    | cons j q => exact ⟨j, q ++ [k], by simp [MergeEvent.path]⟩

theorem entryEvents_prefix {path : List String} {o : Option Value} {e : String × Value} (hu : UniqueKeys e.2) {ev : MergeEvent}
    (h : ev ∈ entryEvents path o e) : ∃ q, MergeEvent.path ev = path ++ e.1 :: q := by
  unfold entryEvents at h
  split at h
  · split at h
    · rcases List.mem_cons.1 h with rfl | h
      · exact ⟨[], rfl⟩
      · obtain ⟨k, q, hq⟩ := event_prefix hu h
        exact ⟨k :: q, by rw [hq]; simp⟩
    · simp only [List.mem_cons, List.not_mem_nil, or_false] at h
      rcases h with rfl | rfl <;> exact ⟨[], rfl⟩
  · simp only [List.mem_cons, List.not_mem_nil, or_false] at h
    rcases h with rfl | rfl <;> exact ⟨[], rfl⟩

theorem events_nodup (b : Value) : UniqueKeys b → ∀ (a : Value) (path : List String), (a.mergeT path b).2.Nodup := by
  induction b using Value.ind with
  | map r ih =>
    intro hu a path
    rcases isMap_cases a with ⟨l, rfl⟩ | ha
    · obtain ⟨hn, hus⟩ := uniqueKeys_map.1 hu
      have hev : (Value.mergeT path (.map l) (.map r)).2 = r.flatMap fun e => entryEvents path (hmGet l e.1) e := by
        rw [Value.mergeT]; exact mergeEntriesT_snd path r l hn
      rw [hev, List.nodup_flatMap]
      constructor
      · intro e he
        unfold entryEvents
        split
        · split
          · refine List.nodup_cons.2 ⟨fun h => ?_, ih e he (hus e he) _ _⟩
            obtain ⟨k, q, hq⟩ := event_prefix (hus e he) h
            simp [MergeEvent.path] at hq
          · simp
        · simp
      · have hp : r.Pairwise fun e d => e.1 ≠ d.1 := by
          rw [List.Nodup, List.pairwise_map] at hn; exact hn
        refine hp.imp_of_mem fun {e d} he hd hne => ?_
        intro ev h1 h2
        obtain ⟨q, hq⟩ := entryEvents_prefix (hus e he) h1
        obtain ⟨q', hq'⟩ := entryEvents_prefix (hus d hd) h2
        rw [hq] at hq'
        have := List.append_cancel_left hq'
        exact hne (List.cons.inj this).1
    · rw [mergeT_nonmap (by simp [ha])]; exact List.nodup_nil
  | _ =>
    intro _ a path
    rw [mergeT_nonmap (by simp [Value.isMap])]; exact List.nodup_nil

/-- **C126.** What `merge` does to the maps (with its result, which is that of C01): it looks up exactly the entries of the overlay whose chains of keys lead through maps on
both sides, each once; it inserts (and clones) exactly those of them that are not maps on both sides, each once, cloning what the overlay has there. So it never runs
through the entries of the receiver. -/
theorem C126_operations (a b : Value) (hb : UniqueKeys b) :
    (a.mergeT [] b).1 = a.merge b ∧ (a.mergeT [] b).2.Nodup ∧
    (∀ p, MergeEvent.lookup p ∈ (a.mergeT [] b).2 ↔ ∃ q k, p = q ++ [k] ∧ (view a (keys q) = some .map ∧ view b (keys q) = some .map) ∧ view b (keys p) ≠ none) ∧
    (∀ p x, MergeEvent.insert p x ∈ (a.mergeT [] b).2 ↔ MergeEvent.lookup p ∈ (a.mergeT [] b).2 ∧
      ¬ (view a (keys p) = some .map ∧ view b (keys p) = some .map) ∧ x = p.foldl Value.get b) := by
  refine ⟨mergeT_fst b [] a, events_nodup b hb a [], fun p => ?_, fun p x => ?_⟩
  · rw [lookup_iff b hb]
    constructor
    · rintro ⟨q, k, rfl, h1, h2⟩; exact ⟨q, k, by simp, h1, by simpa using h2⟩
    · rintro ⟨q, k, rfl, h1, h2⟩; exact ⟨q, k, by simp, h1, h2⟩
  · rw [lookup_iff b hb, insert_iff b hb]
    constructor
    · rintro ⟨q, k, rfl, h1, h2, h3, rfl⟩
      exact ⟨⟨q, k, rfl, h1, h3⟩, by simpa [BothMaps] using h2, by simp⟩
    · rintro ⟨⟨q, k, rfl, h1, h3⟩, h2, rfl⟩
      exact ⟨q, k, rfl, h1, by simpa [BothMaps] using h2, h3, by simp⟩

/-! ## How much work -/

theorem count_pos (v : Value) : 1 ≤ count v := by
  cases v <;> simp only [count] <;> omega

theorem work_le (b : Value) : UniqueKeys b → ∀ (a : Value) (path : List String), ((a.mergeT path b).2.map MergeEvent.work).sum + 3 ≤ 3 * count b := by
  induction b using Value.ind with
  | map r ih =>
    intro hu a path
    rcases isMap_cases a with ⟨l, rfl⟩ | ha
    · obtain ⟨hn, hus⟩ := uniqueKeys_map.1 hu
      have hev : (Value.mergeT path (.map l) (.map r)).2 = r.flatMap fun e => entryEvents path (hmGet l e.1) e := by
        rw [Value.mergeT]; exact mergeEntriesT_snd path r l hn
      have he : ∀ e ∈ r, ((entryEvents path (hmGet l e.1) e).map MergeEvent.work).sum ≤ 3 * count e.2 := by
        intro e he
        have hp := count_pos e.2
        unfold entryEvents
        split
        · split
          · have := ih e he (hus e he) ‹Value› (path ++ [e.1])
            simp only [List.map_cons, List.sum_cons, MergeEvent.work]
            omega
          · simp only [List.map_cons, List.sum_cons, MergeEvent.work, List.map_nil, List.sum_nil]; omega
        · simp only [List.map_cons, List.sum_cons, MergeEvent.work, List.map_nil, List.sum_nil]; omega
      have hsum : ∀ r : Entries, (∀ e ∈ r, ((entryEvents path (hmGet l e.1) e).map MergeEvent.work).sum ≤ 3 * count e.2) →
          ((r.flatMap fun e => entryEvents path (hmGet l e.1) e).map MergeEvent.work).sum ≤ 3 * countMap r := by
        intro r
        induction r with
        | nil => intro _; simp
        | cons e r ih2 =>
          intro h
          have h1 := h e (by simp)
          have h2 := ih2 fun d hd => h d (by simp [hd])
          rw [List.flatMap_cons, List.map_append, List.sum_append, countMap, countEntry]
          omega
      rw [hev, count]
      have := hsum r he
      omega
    · rw [mergeT_nonmap (by simp [ha])]
      have := count_pos (.map r)
      simp only [List.map_nil, List.sum_nil]; omega
  | _ =>
    intro _ a path
    rw [mergeT_nonmap (by simp [Value.isMap])]
    simp only [List.map_nil, List.sum_nil]
    refine Nat.le_trans ?_ (Nat.mul_le_mul_left 3 (count_pos _))
    omega

/-- **C126.** The work of a merge (a unit for each lookup, each insertion and each value cloned) is at most three units for each value inside the overlay, however large the
receiver is. -/
theorem C126_work (a b : Value) (hb : UniqueKeys b) : ((a.mergeT [] b).2.map MergeEvent.work).sum ≤ 3 * (count b - 1) := by
  have := work_le b hb a []
  have := count_pos b
  omega

/-- **C126.** The work of building a configuration is at most three units for each value inside each of the layers. -/
theorem C126_build_work (b : Build) (fm : Formats) (calls : List RegCall) (w : World) (skip : Bool) (hp : ∀ e ∈ firsts (offers b fm calls), Proper e.2) :
    (((register b fm calls).buildLoopT w skip Value.newMap (register b fm calls).names).flatten.map MergeEvent.work).sum ≤
      3 * ((readables w (firsts (offers b fm calls))).map fun x => count x - 1).sum := by
  obtain ⟨h1, h2, h3⟩ := is_register b fm calls
  rw [h2]
  have hl : ∀ e ∈ firsts (offers b fm calls), hmGet (register b fm calls).layers e.1 = some e.2 := fun e he => by rw [h1]; exact hmGet_of_mem' h3 he
  generalize Value.newMap = v
  revert hl hp v
  generalize firsts (offers b fm calls) = ls
  intro hp hl
  induction ls with
  | nil => intro v; simp [Config.buildLoopT, readables]
  | cons e ls ih =>
    intro v
    have ih := ih (fun x hx => hp x (by simp [hx])) (fun x hx => hl x (by simp [hx]))
    rw [List.map_cons, Config.buildLoopT, hl e (by simp)]
    simp only []
    cases hr : e.2.readValue w with
    | error x =>
      have hre : readables w (e :: ls) = readables w ls := by rw [readables, List.filterMap_cons, hr]; rfl
      rw [hre]
      cases skip with
      | true => exact ih v
      | false => simp
    | ok x =>
      have hre : readables w (e :: ls) = x :: readables w ls := by rw [readables, List.filterMap_cons, hr]; rfl
      rw [hre]
      simp only [List.flatten_cons, List.map_append, List.sum_append, List.map_cons, List.sum_cons]
      have := C126_work v x (hp e (by simp) w x hr)
      have := ih (v.mergeT [] x).1
      omega

/-! ## The stack -/

theorem depthBelow_zero (v : Value) : ¬ DepthBelow v 0 := fun h => absurd (h [] (by simp [view])) (by simp)

theorem depthBelow_map {m : Entries} (hn : (m.map Prod.fst).Nodup) {n : Nat} : DepthBelow (.map m) (n + 1) ↔ ∀ e ∈ m, DepthBelow e.2 n := by
  constructor
  · intro h e he p hp
    have := h (.key e.1 :: p) (by rw [view_key_map, hmGet_of_mem hn he]; exact hp)
    simpa using this
  · intro h p hp
    cases p with
    | nil => simp
    | cons s p =>
      cases s with
      | idx i => exact absurd rfl hp
      | key k =>
        rw [view_key_map] at hp
        cases hg : hmGet m k with
        | none => rw [hg] at hp; exact absurd rfl hp
        | some x =>
          rw [hg] at hp
          have := h _ (hmGet_mem hg) p hp
          simpa using this

theorem depthBelow_array {xs : List Value} {n : Nat} : DepthBelow (.array xs) (n + 1) ↔ ∀ x ∈ xs, DepthBelow x n := by
  constructor
  · intro h x hx p hp
    obtain ⟨i, hi⟩ := List.mem_iff_getElem?.1 hx
    have := h (.idx i :: p) (by rw [view_cons]; show (xs[i]?).bind _ ≠ none; rw [hi]; exact hp)
    simpa using this
  · intro h p hp
    cases p with
    | nil => simp
    | cons s p =>
      cases s with
      | key k => exact absurd rfl hp
      | idx i =>
        rw [view_cons] at hp
        have hp : (xs[i]?).bind (fun w => view w p) ≠ none := hp
        cases hg : xs[i]? with
        | none => rw [hg] at hp; exact absurd rfl hp
        | some x =>
          rw [hg] at hp
          have := h x (List.mem_of_getElem? hg) p hp
          simpa using this

theorem depthBelow_scalar {v : Value} (h1 : v.isMap = false) (h2 : v.isArray = false) (n : Nat) : DepthBelow v (n + 1) := by
  intro p hp
  cases p with
  | nil => simp
  | cons s p => cases v <;> first | (cases h1; done) | (cases h2; done) | (cases s <;> exact absurd rfl hp)

theorem cloneListF_iff {n : Nat} (xs : List Value) : cloneListF n xs = some () ↔ ∀ x ∈ xs, x.cloneF n = some () := by
  induction xs with
  | nil => simp [cloneListF]
  | cons x xs ih =>
    rw [cloneListF, List.forall_mem_cons, ← ih]
    cases x.cloneF n <;> simp

theorem cloneMapF_iff {n : Nat} (m : Entries) : cloneMapF n m = some () ↔ ∀ e ∈ m, e.2.cloneF n = some () := by
  induction m with
  | nil => simp [cloneMapF]
  | cons e m ih =>
    rw [cloneMapF, List.forall_mem_cons, ← ih]
    have : cloneEntryF n e = e.2.cloneF n := by rw [cloneEntryF]
    rw [this]
    cases e.2.cloneF n <;> simp

theorem cloneF_iff (v : Value) : UniqueKeys v → ∀ n, v.cloneF n = some () ↔ DepthBelow v n := by
  induction v using Value.ind with
  | map m ih =>
    intro hu n
    obtain ⟨hn, hus⟩ := uniqueKeys_map.1 hu
    cases n with
    | zero => simp [Value.cloneF, depthBelow_zero]
    | succ n =>
      rw [Value.cloneF, cloneMapF_iff, depthBelow_map hn]
      exact ⟨fun h e he => (ih e he (hus e he) n).1 (h e he), fun h e he => (ih e he (hus e he) n).2 (h e he)⟩
  | array xs ih =>
    intro hu n
    have hus := uniqueKeys_array.1 hu
    cases n with
    | zero => simp [Value.cloneF, depthBelow_zero]
    | succ n =>
      rw [Value.cloneF, cloneListF_iff, depthBelow_array]
      exact ⟨fun h e he => (ih e he (hus e he) n).1 (h e he), fun h e he => (ih e he (hus e he) n).2 (h e he)⟩
  | _ =>
    intro _ n
    cases n with
    | zero => simp [Value.cloneF, depthBelow_zero]
    | succ n => simp only [Value.cloneF, true_iff]; exact depthBelow_scalar rfl rfl n

theorem dropF_eq (v : Value) : ∀ n, v.dropF n = v.cloneF n := by
  induction v using Value.ind with
  | map m ih =>
    intro n
    cases n with
    | zero => simp [Value.dropF, Value.cloneF]
    | succ n =>
      rw [Value.dropF, Value.cloneF]
      induction m with
      | nil => rfl
      | cons e m ihm =>
        rw [dropMapF, cloneMapF, ihm fun e he => ih e (by simp [he])]
        have : dropEntryF n e = cloneEntryF n e := by rw [dropEntryF, cloneEntryF]; exact ih e (by simp) n
        rw [this]
  | array xs ih =>
    intro n
    cases n with
    | zero => simp [Value.dropF, Value.cloneF]
    | succ n =>
      rw [Value.dropF, Value.cloneF]
      induction xs with
      | nil => rfl
      | cons x xs ihm =>
        rw [dropListF, cloneListF, ihm fun e he => ih e (by simp [he]), ih x (by simp) n]
  | _ => intro n; cases n <;> simp [Value.dropF, Value.cloneF]

theorem cloneF_cases (v : Value) (hu : UniqueKeys v) (n : Nat) : (DepthBelow v n → v.cloneF n = some ()) ∧ (¬ DepthBelow v n → v.cloneF n = none) := by
  refine ⟨(cloneF_iff v hu n).2, fun h => ?_⟩
  cases hx : v.cloneF n with
  | none => rfl
  | some u => exact absurd ((cloneF_iff v hu n).1 hx) h

theorem spokenBelow_replaced {a b : Value} (h : ¬ (a.isMap = true ∧ b.isMap = true)) (n : Nat) : SpokenBelow a b n ↔ DepthBelow a n := by
  refine ⟨fun hs p hp => hs p hp ?_, fun hd p hp _ => hd p hp⟩
  cases hb : b.isMap with
  | false => exact not_silent_nonmap hb p
  | true =>
    obtain ⟨m, rfl⟩ := (isMap_cases b).resolve_right (by simp [hb])
    match p with
    | [] => exact not_silent_nil _
    | .idx i :: p => exact not_silent_idx m i p
    | .key k :: p =>
      refine absurd ?_ hp
      have : child a (.key k) = none := by
        cases a <;> first | rfl | exact absurd ⟨rfl, hb⟩ h
      simp [view, this]

theorem spokenBelow_map {l r : Entries} (hn : (r.map Prod.fst).Nodup) {n : Nat} :
    SpokenBelow (.map l) (.map r) (n + 1) ↔ ∀ e ∈ r, ∀ x, hmGet l e.1 = some x → SpokenBelow x e.2 n := by
  constructor
  · intro h e he x hx p hp hs
    have := h (.key e.1 :: p) (by rw [view_key_map, hx]; exact hp) (by rw [silent_key_map, hmGet_of_mem' hn he]; exact hs)
    simpa using this
  · intro h p hp hs
    match p with
    | [] => simp
    | .idx i :: p => exact absurd (by simp [view, child]) hp
    | .key k :: p =>
      rw [view_key_map] at hp
      rw [silent_key_map] at hs
      cases hr : hmGet r k with
      | none => rw [hr] at hs; exact absurd trivial hs
      | some y =>
        rw [hr] at hs
        cases hl : hmGet l k with
        | none => rw [hl] at hp; exact absurd rfl hp
        | some x =>
          rw [hl] at hp
          have := h (k, y) (hmGet_mem hr) x hl p hp hs
          simpa using this

/-- What one entry of the overlay needs. -/
theorem mergeEntryF_eq {n : Nat} (lhs : Entries) (e : String × Value) (hu : UniqueKeys e.2) (hl : ∀ x, hmGet lhs e.1 = some x → UniqueKeys x)
    (ih : ∀ a : Value, UniqueKeys a → a.isMap = true → e.2.isMap = true →
      (DepthBelow e.2 n ∧ SpokenBelow a e.2 n → a.mergeF n e.2 = some (a.merge e.2)) ∧ (¬ (DepthBelow e.2 n ∧ SpokenBelow a e.2 n) → a.mergeF n e.2 = none)) :
    ((DepthBelow e.2 n ∧ ∀ x, hmGet lhs e.1 = some x → SpokenBelow x e.2 n) → mergeEntryF n lhs e = some (mergeEntry lhs e)) ∧
    (¬ (DepthBelow e.2 n ∧ ∀ x, hmGet lhs e.1 = some x → SpokenBelow x e.2 n) → mergeEntryF n lhs e = none) := by
  obtain ⟨k, v⟩ := e
  have hc := cloneF_cases v hu n
  simp only [mergeEntryF, mergeEntry] at hl ⊢
  cases hg : hmGet lhs k with
  | none =>
    refine ⟨fun h => by rw [hc.1 h.1]; rfl, fun h => ?_⟩
    rw [hc.2 fun hv => h ⟨hv, nofun⟩]; rfl
  | some l =>
    simp only [Option.some.injEq, forall_eq']
    split
    · rename_i hm
      simp only [Bool.and_eq_true] at hm
      obtain ⟨i1, i2⟩ := ih l (hl l hg) hm.1 hm.2
      exact ⟨fun h => by rw [i1 h]; rfl, fun h => by rw [i2 h]; rfl⟩
    · rename_i hm
      have hd := cloneF_cases l (hl l hg) n
      rw [spokenBelow_replaced (by simpa using hm), dropF_eq]
      refine ⟨fun h => by rw [hc.1 h.1, hd.1 h.2]; rfl, fun h => ?_⟩
      by_cases hv : DepthBelow v n
      · rw [hc.1 hv, hd.2 fun hx => h ⟨hv, hx⟩]; rfl
      · rw [hc.2 hv]; rfl

theorem mergeF_cases (b : Value) : UniqueKeys b → ∀ (n : Nat) (a : Value), UniqueKeys a → a.isMap = true → b.isMap = true →
    (DepthBelow b n ∧ SpokenBelow a b n → a.mergeF n b = some (a.merge b)) ∧ (¬ (DepthBelow b n ∧ SpokenBelow a b n) → a.mergeF n b = none) := by
  induction b using Value.ind with
  | map r ih =>
    intro hu n a hua ha _
    obtain ⟨hn, hus⟩ := uniqueKeys_map.1 hu
    obtain ⟨l, rfl⟩ := (isMap_cases a).resolve_right (by simp [ha])
    have hul := (uniqueKeys_map.1 hua).2
    cases n with
    | zero => exact ⟨fun h => absurd h.1 (depthBelow_zero _), fun _ => rfl⟩
    | succ n =>
      rw [Value.mergeF, merge_map_map, depthBelow_map hn, spokenBelow_map hn]
      have key : ∀ (r' : Entries), (∀ e ∈ r', e ∈ r) → (r'.map Prod.fst).Nodup → ∀ l : Entries, (∀ e ∈ r', ∀ x, hmGet l e.1 = some x → UniqueKeys x) →
          ((∀ e ∈ r', DepthBelow e.2 n ∧ ∀ x, hmGet l e.1 = some x → SpokenBelow x e.2 n) → mergeEntriesF n l r' = some (mergeEntries l r')) ∧
          (¬ (∀ e ∈ r', DepthBelow e.2 n ∧ ∀ x, hmGet l e.1 = some x → SpokenBelow x e.2 n) → mergeEntriesF n l r' = none) := by
        intro r'
        induction r' with
        | nil => exact fun _ _ l _ => ⟨fun _ => rfl, fun h => absurd (by simp) h⟩
        | cons e r' ih2 =>
          intro hsub hnd l hl
          have he : e ∈ r := hsub e (by simp)
          rw [List.map_cons, List.nodup_cons] at hnd
          have hne : ∀ d ∈ r', hmGet (mergeEntry l e) d.1 = hmGet l d.1 := fun d hd =>
            hmGet_mergeEntry_ne fun h => hnd.1 (h ▸ List.mem_map_of_mem hd)
          obtain ⟨h1, h2⟩ := mergeEntryF_eq (n := n) l e (hus e he) (hl e (by simp)) (fun a hua ha hb => ih e he (hus e he) n a hua ha hb)
          obtain ⟨h3, h4⟩ := ih2 (fun d hd => hsub d (by simp [hd])) hnd.2 (mergeEntry l e) (fun d hd x hx => by
            rw [hne d hd] at hx; exact hl d (by simp [hd]) x hx)
          rw [mergeEntriesF, mergeEntries]
          by_cases hd : DepthBelow e.2 n ∧ ∀ x, hmGet l e.1 = some x → SpokenBelow x e.2 n
          · rw [h1 hd, Option.bind_some]
            refine ⟨fun h => h3 fun d hd' => by rw [hne d hd']; exact h d (by simp [hd']), fun h => h4 fun hall => h (List.forall_mem_cons.2 ⟨hd, fun d hd' => ?_⟩)⟩
            have := hall d hd'
            rw [hne d hd'] at this; exact this
          · rw [h2 hd]
            exact ⟨fun h => absurd (h e (by simp)) hd, fun _ => rfl⟩
      obtain ⟨h1, h2⟩ := key r (fun _ h => h) hn l fun e _ x hx => hul _ (hmGet_mem hx)
      exact ⟨fun h => by rw [h1 fun e he => ⟨h.1 e he, h.2 e he⟩]; rfl, fun h => by rw [h2 fun h' => h ⟨fun e he => (h' e he).1, fun e he => (h' e he).2⟩]; rfl⟩
  | _ => intro _ n a _ _ hb; cases hb

/-- **C126.** On a stack that takes `n` nested calls (of `merge`, of `clone`, or of the drop glue for what is replaced) a merge of two maps goes through exactly if the overlay, and
everything in the receiver that the overlay speaks about, is nested less than `n` deep; the rest of the receiver may be as deep as it likes. (With a non-map on either side one call is
enough.) -/
theorem C126_stack (a b : Value) (ha : UniqueKeys a) (hb : UniqueKeys b) (n : Nat) :
    (a.isMap = true → b.isMap = true →
      (DepthBelow b n ∧ SpokenBelow a b n → a.mergeF n b = some (a.merge b)) ∧ (¬ (DepthBelow b n ∧ SpokenBelow a b n) → a.mergeF n b = none)) ∧
    (¬ (a.isMap = true ∧ b.isMap = true) → a.mergeF (n + 1) b = some (a.merge b)) := by
  refine ⟨fun h1 h2 => mergeF_cases b hb n a ha h1 h2, fun h => ?_⟩
  cases b <;> try rfl
  cases a <;> try rfl
  exact absurd ⟨rfl, rfl⟩ h

theorem depth_merge {a b : Value} (hb : UniqueKeys b) {n : Nat} (h1 : DepthBelow a n) (h2 : b.isMap = true → DepthBelow b n) : DepthBelow (a.merge b) n := by
  by_cases h : a.isMap = true ∧ b.isMap = true
  · intro p hp
    obtain ⟨v1, v2⟩ := view_merge' h.1 h.2 hb p
    by_cases hs : Silent b p
    · exact h1 p (by rw [← v1 hs]; exact hp)
    · exact h2 h.2 p (by rw [← v2 hs]; exact hp)
  · have : a.merge b = a := by
      cases b <;> try rfl
      cases a <;> try rfl
      exact absurd ⟨rfl, rfl⟩ h
    rw [this]; exact h1

theorem buildLoopF_eq {n : Nat} {w : World} {c : Config} {skip : Bool} : ∀ (ls : List (String × Layer)),
    (∀ e ∈ ls, hmGet c.layers e.1 = some e.2) → (∀ e ∈ ls, Proper e.2) → ∀ v : Value, v.isMap = true → UniqueKeys v → DepthBelow v (n + 1) →
    ((∀ e ∈ ls, ∀ x, e.2.readValue w = .ok x → DepthBelow x (n + 1)) →
      c.buildLoopF (n + 1) w skip v (ls.map Prod.fst) = some (c.buildLoop w skip v (ls.map Prod.fst))) ∧
    (∀ before e after x, ls = before ++ e :: after → e.2.readValue w = .ok x → ¬ DepthBelow x (n + 1) →
      (skip = true ∨ ∀ d ∈ before, ∃ y, d.2.readValue w = .ok y) → c.buildLoopF (n + 1) w skip v (ls.map Prod.fst) = none) := by
  intro ls
  induction ls with
  | nil => exact fun _ _ v _ _ _ => ⟨fun _ => rfl, fun before e after x h => by simp at h⟩
  | cons e ls ih =>
    intro hl hp v hv hu hdv
    have ih := ih (fun x hx => hl x (by simp [hx])) (fun x hx => hp x (by simp [hx]))
    rw [List.map_cons, Config.buildLoopF, Config.buildLoop, hl e (by simp)]
    simp only []
    cases hr : e.2.readValue w with
    | error x =>
      simp only []
      obtain ⟨h1, h2⟩ := ih v hv hu hdv
      constructor
      · intro h
        cases skip with
        | true => exact h1 fun d hd => h d (by simp [hd])
        | false => simp only [Bool.false_eq_true, if_false]; rw [dropF_eq, (cloneF_iff v hu _).2 hdv]; rfl
      · intro before d after x hsplit hx hd hok
        cases before with
        | nil => cases hsplit; rw [hr] at hx; cases hx
        | cons d0 before =>
          obtain ⟨rfl, rfl⟩ := List.cons.inj hsplit
          rcases hok with rfl | hok
          · exact h2 before d after x rfl hx hd (.inl rfl)
          · obtain ⟨y, hy⟩ := hok _ (List.mem_cons_self ..); rw [hr] at hy; cases hy
    | ok x =>
      simp only []
      have hux : UniqueKeys x := hp e (by simp) w x hr
      have hcx := cloneF_cases x hux (n + 1)
      have step : DepthBelow x (n + 1) → v.mergeF (n + 1) x = some (v.merge x) := by
        intro hd
        cases hm : x.isMap with
        | true => exact ((C126_stack v x hu hux (n + 1)).1 hv hm).1 ⟨hd, fun p hp' _ => hdv p hp'⟩
        | false => exact (C126_stack v x hu hux n).2 (by simp [hm])
      have stop : ¬ DepthBelow x (n + 1) → ((v.mergeF (n + 1) x).bind fun value => (x.dropF (n + 1)).bind fun _ => c.buildLoopF (n + 1) w skip value (ls.map Prod.fst)) = none := by
        intro hd
        rw [dropF_eq, hcx.2 hd]
        cases v.mergeF (n + 1) x <;> rfl
      have ih := fun hd => ih (v.merge x) (by rw [isMap_merge]; exact hv) (uniqueKeys_merge hu hux) (depth_merge hux hdv fun _ => hd)
      constructor
      · intro h
        have hd := h e (by simp) x hr
        rw [step hd, dropF_eq, hcx.1 hd, Option.bind_some, Option.bind_some]
        exact (ih hd).1 fun d hd => h d (by simp [hd])
      · intro before d after y hsplit hx hd hok
        by_cases hx' : DepthBelow x (n + 1)
        · cases before with
          | nil => cases hsplit; rw [hr] at hx; cases hx; exact absurd hx' hd
          | cons d0 before =>
            obtain ⟨rfl, rfl⟩ := List.cons.inj hsplit
            rw [step hx', dropF_eq, hcx.1 hx', Option.bind_some, Option.bind_some]
            exact (ih hx').2 before d after y rfl hx hd (hok.imp id fun h d hd => h d (by simp [hd]))
        · exact stop hx'

/-- **C126.** On a stack that takes `n` nested calls: if every layer that can be read is nested less than `n` deep, building goes through, whatever the number and the order of the layers; if one of them is
nested deeper (and the build gets there), the stack overflows. -/
theorem C126_build_stack (b : Build) (fm : Formats) (calls : List RegCall) (w : World) (skip : Bool) (hp : ∀ e ∈ firsts (offers b fm calls), Proper e.2) (n : Nat) (hn : 0 < n) :
    ((∀ e ∈ firsts (offers b fm calls), ∀ x, e.2.readValue w = .ok x → DepthBelow x n) →
      (register b fm calls).buildValueF n w skip = some ((register b fm calls).buildValue w skip)) ∧
    (∀ before e after x, firsts (offers b fm calls) = before ++ e :: after → e.2.readValue w = .ok x → ¬ DepthBelow x n →
      (skip = true ∨ ∀ d ∈ before, ∃ y, d.2.readValue w = .ok y) → (register b fm calls).buildValueF n w skip = none) := by
  obtain ⟨h1, h2, h3⟩ := is_register b fm calls
  obtain ⟨n, rfl⟩ : ∃ m, n = m + 1 := ⟨n - 1, by omega⟩
  have hl : ∀ e ∈ firsts (offers b fm calls), hmGet (register b fm calls).layers e.1 = some e.2 := fun e he => by rw [h1]; exact hmGet_of_mem' h3 he
  unfold Config.buildValueF Config.buildValue
  rw [h2]
  exact buildLoopF_eq _ hl hp _ rfl (uniqueKeys_map.2 ⟨List.nodup_nil, by simp⟩) ((depthBelow_map (m := []) (by simp)).2 (by simp))

/-! ## Examples -/

def exCostA : Value := .map [("srv", .map [("port", .boolean true), ("host", .string "h")]), ("k", .none)]
def exCostB : Value := .map [("srv", .map [("port", .boolean false)]), ("new", .array [.none, .none])]

theorem exCostB_unique : UniqueKeys exCostB := by simp [exCostB, UniqueKeys, UniqueKeysMap, UniqueKeysEntry, UniqueKeysList]

/-- What is done; the `host` and the `k` of the receiver are not looked at. -/
example : (exCostA.mergeT [] exCostB).2 = [.lookup ["srv"], .lookup ["srv", "port"], .insert ["srv", "port"] (.boolean false), .lookup ["new"],
    .insert ["new"] (.array [.none, .none])] := rfl
example : MergeEvent.lookup ["srv", "host"] ∉ (exCostA.mergeT [] exCostB).2 := fun h => by
  obtain ⟨q, k, hp, -, h⟩ := ((C126_operations exCostA exCostB exCostB_unique).2.2.1 ["srv", "host"]).1 h
  exact h rfl
example : count exCostB = 6 ∧ ((exCostA.mergeT [] exCostB).2.map MergeEvent.work).sum = 9 ∧ (9 : Nat) ≤ 3 * (count exCostB - 1) :=
  ⟨rfl, rfl, C126_work exCostA exCostB exCostB_unique⟩

theorem exCostB_depth : DepthBelow exCostB 3 := by
  refine (depthBelow_map (by decide)).2 fun e he => ?_
  simp only [List.mem_cons, List.not_mem_nil, or_false] at he
  rcases he with rfl | rfl
  · refine (depthBelow_map (by decide)).2 fun e he => ?_
    simp only [List.mem_cons, List.not_mem_nil, or_false] at he
    subst he
    exact depthBelow_scalar rfl rfl 0
  · refine depthBelow_array.2 fun x hx => ?_
    simp only [List.mem_cons, List.not_mem_nil, or_false] at hx
    rcases hx with rfl | rfl <;> exact depthBelow_scalar rfl rfl 0

theorem exCostA_unique : UniqueKeys exCostA := by simp [exCostA, UniqueKeys, UniqueKeysMap, UniqueKeysEntry]

theorem exCostA_depth : DepthBelow exCostA 3 := by
  refine (depthBelow_map (by decide)).2 fun e he => ?_
  simp only [List.mem_cons, List.not_mem_nil, or_false] at he
  rcases he with rfl | rfl
  · refine (depthBelow_map (by decide)).2 fun e he => ?_
    simp only [List.mem_cons, List.not_mem_nil, or_false] at he
    rcases he with rfl | rfl <;> exact depthBelow_scalar rfl rfl 0
  · exact depthBelow_scalar rfl rfl 1

/-- Three nested calls are enough, two are not. -/
example : exCostA.mergeF 3 exCostB = some (exCostA.merge exCostB) ∧ exCostA.mergeF 2 exCostB = none :=
  ⟨((C126_stack exCostA exCostB exCostA_unique exCostB_unique 3).1 rfl rfl).1 ⟨exCostB_depth, fun p hp _ => exCostA_depth p hp⟩,
   ((C126_stack exCostA exCostB exCostA_unique exCostB_unique 2).1 rfl rfl).2 fun h => absurd (h.1 [.key "srv", .key "port"] (by simp [exCostB, view, child])) (by simp)⟩

/-- A shallow overlay that replaces a deep part of the receiver needs the stack for dropping it; one that leaves it alone does not. -/
example : exCostA.mergeF 2 (.map [("srv", .none)]) = none ∧ exCostA.mergeF 2 (.map [("k", .boolean true)]) = some (exCostA.merge (.map [("k", .boolean true)])) := by
  have hu : ∀ k v, v = Value.none ∨ v = .boolean true → UniqueKeys (.map [(k, v)]) := fun k v h => uniqueKeys_map.2 ⟨by simp, by rcases h with rfl | rfl <;> simp [UniqueKeys]⟩
  constructor
  · refine ((C126_stack exCostA _ exCostA_unique (hu _ _ (.inl rfl)) 2).1 rfl rfl).2 fun h => ?_
    have := h.2 [.key "srv", .key "port"] (by simp [exCostA, view, child]) (by rw [silent_key_map]; exact not_silent_nonmap rfl _)
    simp at this
  · refine ((C126_stack exCostA _ exCostA_unique (hu _ _ (.inr rfl)) 2).1 rfl rfl).1 ⟨?_, ?_⟩
    · exact (depthBelow_map (by simp)).2 (by simpa using depthBelow_scalar rfl rfl 0)
    · refine (spokenBelow_map (by simp)).2 ?_
      simp only [List.mem_singleton, forall_eq]
      intro x hx
      cases hx
      exact (spokenBelow_replaced (by decide) 1).2 (depthBelow_scalar rfl rfl 0)

def exCostCalls : List RegCall := [.memory "a" exCostA, .memory "b" exCostB]

theorem exCost_proper : ∀ e ∈ firsts (offers exB1 exFormats exCostCalls), Proper e.2 := by
  intro e he
  have : firsts (offers exB1 exFormats exCostCalls) = [("a", .memory exCostA), ("b", .memory exCostB)] := by rfl
  rw [this] at he
  simp only [List.mem_cons, List.not_mem_nil, or_false] at he
  rcases he with rfl | rfl
  · intro w v hv; cases hv; simp [exCostA, UniqueKeys, UniqueKeysMap, UniqueKeysEntry]
  · intro w v hv; cases hv; exact exCostB_unique

example : (((register exB1 exFormats exCostCalls).buildLoopT exDisk true Value.newMap (register exB1 exFormats exCostCalls).names).flatten.map MergeEvent.work).sum ≤ 27 :=
  C126_build_work exB1 exFormats exCostCalls exDisk true exCost_proper

example (skip : Bool) : (register exB1 exFormats exCostCalls).buildValueF 2 exDisk skip = none ∧
    (register exB1 exFormats exCostCalls).buildValueF 3 exDisk skip = some ((register exB1 exFormats exCostCalls).buildValue exDisk skip) := by
  constructor
  · refine (C126_build_stack exB1 exFormats exCostCalls exDisk skip exCost_proper 2 (by decide)).2 [("a", .memory exCostA)] ("b", .memory exCostB) [] exCostB rfl rfl
      (fun h => absurd (h [.key "srv", .key "port"] (by simp [exCostB, view, child])) (by simp)) (.inr ?_)
    intro d hd
    simp only [List.mem_singleton] at hd
    subst hd; exact ⟨_, rfl⟩
  · refine (C126_build_stack exB1 exFormats exCostCalls exDisk skip exCost_proper 3 (by decide)).1 fun e he x hx => ?_
    have : firsts (offers exB1 exFormats exCostCalls) = [("a", .memory exCostA), ("b", .memory exCostB)] := by rfl
    rw [this] at he
    simp only [List.mem_cons, List.not_mem_nil, or_false] at he
    rcases he with rfl | rfl
    · cases hx; exact exCostA_depth
    · cases hx; exact exCostB_depth

end Verif.Props
