import Verif.Spec.Protocol
import Verif.Lemmas.SerdeOrder
/-!
# Lemmas: serializer and accessor protocols
-/
namespace Verif
open Spec

theorem calls_snoc (cs : List MapCall) (c : MapCall) : ∀ st : SerMap,
    st.calls (cs ++ [c]) = (st.calls cs).bind fun st => match st.call c with | (.panic, _) => none | (_, st) => some st := by
  induction cs with
  | nil => intro st; simp only [List.nil_append, SerMap.calls, Option.bind_some]; split <;> rename_i h <;> simp [h]
  | cons d r ih =>
    intro st
    simp only [List.cons_append, SerMap.calls]
    split
    · rfl
    · rename_i o st' h
      exact ih _

theorem getElem?_snoc {α : Type} (cs : List α) (c : α) (i : Nat) (d : α) :
    (cs ++ [c])[i]? = some d ↔ cs[i]? = some d ∨ (i = cs.length ∧ d = c) := by
  rw [List.getElem?_append]
  split
  · rename_i h
    constructor
    · exact Or.inl
    · rintro (h' | ⟨rfl, _⟩)
      · exact h'
      · omega
  · rename_i h
    have : cs[i]? = none := List.getElem?_eq_none (by omega)
    rw [this]
    constructor
    · intro h'
      have h2 : i - cs.length < 1 := (List.getElem?_eq_some_iff.1 h').1
      have h3 : i = cs.length := by omega
      subst h3
      simp at h'
      exact Or.inr ⟨rfl, h'.symm⟩
    · rintro (h' | ⟨rfl, rfl⟩)
      · cases h'
      · simp

theorem pending_snoc (cs : List MapCall) (c : MapCall) (k : String) :
    Pending (cs ++ [c]) k ↔ NamesKey c k ∨ (Pending cs k ∧ (∀ k', ¬ NamesKey c k') ∧ ¬ StoresValue c) := by
  constructor
  · rintro ⟨j, d, hj, hd, hr⟩
    rcases (getElem?_snoc ..).1 hj with hj | ⟨rfl, rfl⟩
    · have hlt := (List.getElem?_eq_some_iff.1 hj).1
      exact Or.inr ⟨⟨j, d, hj, hd, fun i c' hi hc => hr i c' hi ((getElem?_snoc ..).2 (Or.inl hc))⟩,
        hr cs.length c hlt ((getElem?_snoc ..).2 (Or.inr ⟨rfl, rfl⟩))⟩
    · exact Or.inl hd
  · rintro (h | ⟨⟨j, d, hj, hd, hr⟩, h⟩)
    · refine ⟨cs.length, c, (getElem?_snoc ..).2 (Or.inr ⟨rfl, rfl⟩), h, ?_⟩
      intro i c' hi hc
      have := (List.getElem?_eq_some_iff.1 hc).1
      simp at this; omega
    · refine ⟨j, d, (getElem?_snoc ..).2 (Or.inl hj), hd, ?_⟩
      intro i c' hi hc
      rcases (getElem?_snoc ..).1 hc with hc | ⟨rfl, rfl⟩
      · exact hr i c' hi hc
      · exact h

theorem pending_nil (k : String) : ¬ Pending [] k := by
  rintro ⟨j, c, h, _⟩; simp at h

theorem pending_unique {cs : List MapCall} {k k' : String} (h : Pending cs k) (h' : Pending cs k') : k = k' := by
  obtain ⟨j, c, h1, h2, h3⟩ := h
  obtain ⟨j', c', h1', h2', h3'⟩ := h'
  rcases Nat.lt_trichotomy j j' with hj | hj | hj
  · exact absurd h2' ((h3 j' c' hj h1').1 k')
  · subst hj
    rw [h1] at h1'; cases h1'
    obtain ⟨v, rfl, hv⟩ := h2
    obtain ⟨v', e, hv'⟩ := h2'
    cases e
    rw [hv] at hv'; cases hv'; rfl
  · exact absurd h2 ((h3' j c hj h1).1 k)

theorem writes_snoc (cs : List MapCall) (c : MapCall) (i : Nat) (k : String) (x : Value) :
    Writes (cs ++ [c]) i k x ↔ Writes cs i k x ∨
      (i = cs.length ∧ ((c = .value (.ok x) ∧ Pending cs k) ∨ c = .field k (.ok x))) := by
  unfold Writes
  rw [getElem?_snoc, getElem?_snoc]
  constructor
  · rintro (⟨h | ⟨rfl, rfl⟩, hp⟩ | h | ⟨rfl, rfl⟩)
    · have hlt := (List.getElem?_eq_some_iff.1 h).1
      rw [List.take_append_of_le_length (by omega)] at hp
      exact Or.inl (Or.inl ⟨h, hp⟩)
    · rw [List.take_left] at hp
      exact Or.inr ⟨rfl, Or.inl ⟨rfl, hp⟩⟩
    · exact Or.inl (Or.inr h)
    · exact Or.inr ⟨rfl, Or.inr rfl⟩
  · rintro ((⟨h, hp⟩ | h) | ⟨rfl, ⟨rfl, hp⟩ | rfl⟩)
    · have hlt := (List.getElem?_eq_some_iff.1 h).1
      exact Or.inl ⟨Or.inl h, by rw [List.take_append_of_le_length (by omega)]; exact hp⟩
    · exact Or.inr (Or.inl h)
    · exact Or.inl ⟨Or.inr ⟨rfl, rfl⟩, by rw [List.take_left]; exact hp⟩
    · exact Or.inr (Or.inr ⟨rfl, rfl⟩)

theorem writes_lt {cs : List MapCall} {i : Nat} {k : String} {x : Value} (h : Writes cs i k x) : i < cs.length := by
  rcases h with ⟨h, _⟩ | h <;> exact (List.getElem?_eq_some_iff.1 h).1

/-- The new call stores something under `k'`. -/
theorem lastWritten_snoc_write (cs : List MapCall) (c : MapCall) (k' : String) (x' : Value)
    (hc : ∀ k x, ((c = .value (.ok x) ∧ Pending cs k) ∨ c = .field k (.ok x)) ↔ k = k' ∧ x = x') (k : String) (x : Value) :
    LastWritten (cs ++ [c]) k x ↔ if k' = k then x = x' else LastWritten cs k x := by
  unfold LastWritten
  simp only [writes_snoc, hc]
  split
  · rename_i e; subst e
    constructor
    · rintro ⟨i, h, hl⟩
      rcases h with h | ⟨_, _, rfl⟩
      · exact absurd (Or.inr ⟨rfl, rfl, rfl⟩) (hl cs.length x' (writes_lt h))
      · rfl
    · rintro rfl
      refine ⟨cs.length, Or.inr ⟨rfl, rfl, rfl⟩, ?_⟩
      rintro j y hj (h | ⟨rfl, _⟩)
      · have := writes_lt h; omega
      · omega
  · rename_i e
    constructor
    · rintro ⟨i, h | ⟨_, rfl, _⟩, hl⟩
      · exact ⟨i, h, fun j y hj hw => hl j y hj (Or.inl hw)⟩
      · exact absurd rfl e
    · rintro ⟨i, h, hl⟩
      refine ⟨i, Or.inl h, ?_⟩
      rintro j y hj (hw | ⟨_, rfl, _⟩)
      · exact hl j y hj hw
      · exact absurd rfl e

/-- The new call stores nothing. -/
theorem lastWritten_snoc_none (cs : List MapCall) (c : MapCall)
    (hc : ∀ k x, ¬ ((c = .value (.ok x) ∧ Pending cs k) ∨ c = .field k (.ok x))) (k : String) (x : Value) :
    LastWritten (cs ++ [c]) k x ↔ LastWritten cs k x := by
  unfold LastWritten
  simp only [writes_snoc, hc, and_false, or_false]

/-- What the serializer's state is after a history of calls that did not panic. -/
structure Tracks (cs : List MapCall) (st : SerMap) : Prop where
  key : ∀ k, st.key = some k ↔ Pending cs k
  map : ∃ m, st.map = .map m ∧ (m.map Prod.fst).Nodup ∧ ∀ k x, hmGet m k = some x ↔ LastWritten cs k x

theorem tracks_nil : Tracks [] SerMap.new := by
  refine ⟨fun k => ⟨fun h => by simp [SerMap.new] at h, fun h => absurd h (pending_nil k)⟩, [], rfl, List.nodup_nil, ?_⟩
  intro k x
  simp only [hmGet, reduceCtorEq, false_iff]
  rintro ⟨i, h, _⟩
  have := writes_lt h
  simp at this

theorem Tracks.key_none {cs : List MapCall} {st : SerMap} (h : Tracks cs st) : st.key = none ↔ ∀ k, ¬ Pending cs k := by
  cases hk : st.key with
  | none => simp; intro k hp; rw [← h.key, hk] at hp; cases hp
  | some k => simp; exact ⟨k, (h.key k).1 hk⟩

/-- A call that changes neither the map nor the pending key. -/
theorem Tracks.idle {cs : List MapCall} {st : SerMap} (h : Tracks cs st) {c : MapCall}
    (h1 : ∀ k, ¬ NamesKey c k) (h2 : ¬ StoresValue c) (h3 : ∀ k x, c ≠ .field k (.ok x)) : Tracks (cs ++ [c]) st := by
  refine ⟨fun k => ?_, ?_⟩
  · rw [pending_snoc, h.key]
    exact ⟨fun hp => Or.inr ⟨hp, h1, h2⟩, fun hp => hp.elim (fun hn => absurd hn (h1 k)) And.left⟩
  · obtain ⟨m, e, hn, hm⟩ := h.map
    refine ⟨m, e, hn, fun k x => ?_⟩
    rw [hm, lastWritten_snoc_none]
    rintro k x (⟨rfl, _⟩ | rfl)
    · exact h2 ⟨_, rfl⟩
    · exact h3 _ _ rfl

/-- One call. -/
theorem tracks_call {cs : List MapCall} {st : SerMap} (h : Tracks cs st) (c : MapCall) :
    (((∃ a, c = .value a) ∧ ∀ k, ¬ Pending cs k) ∨ c = .key .panic ∨ c = .value .panic ∨ ∃ n, c = .field n .panic) ∧
      (st.call c).1 = .panic ∨
    ¬ (((∃ a, c = .value a) ∧ ∀ k, ¬ Pending cs k) ∨ c = .key .panic ∨ c = .value .panic ∨ ∃ n, c = .field n .panic) ∧
      (st.call c).1 ≠ .panic ∧ Tracks (cs ++ [c]) (st.call c).2 := by
  obtain ⟨m, em, hnd, hm⟩ := h.map
  cases c with
  | key a =>
    cases a with
    | panic => left; simp [SerMap.call]
    | err e =>
      right
      refine ⟨by simp, by simp [SerMap.call], ?_⟩
      simp only [SerMap.call]
      exact h.idle (by rintro k ⟨v, hv, _⟩; cases hv) (by rintro ⟨a, ha⟩; cases ha) (by simp)
    | ok v =>
      right
      refine ⟨by simp, ?_⟩
      simp only [SerMap.call]
      cases hk : v.tryIntoMethod .string with
      | error e =>
        refine ⟨by simp, ?_⟩
        exact h.idle (by rintro k ⟨v, hv, hh⟩; cases hv; rw [hk] at hh; cases hh) (by rintro ⟨a, ha⟩; cases ha) (by simp)
      | ok k0 =>
        refine ⟨by simp, ?_, m, em, hnd, ?_⟩
        · intro k
          have hn : ∀ k, NamesKey (.key (.ok v)) k ↔ k0 = k := by
            intro k
            constructor
            · rintro ⟨v', e, hh⟩; cases e; rw [hk] at hh; cases hh; rfl
            · rintro rfl; exact ⟨v, rfl, hk⟩
          simp only [pending_snoc, hn, Option.some.injEq]
          constructor
          · exact Or.inl
          · rintro (e | ⟨_, hh, _⟩)
            · exact e
            · exact absurd rfl (hh k0)
        · intro k x
          rw [hm, lastWritten_snoc_none]
          rintro k x (⟨h, _⟩ | h) <;> cases h
  | value a =>
    have nk : ∀ k, ¬ NamesKey (.value a) k := by rintro k ⟨v, hv, _⟩; cases hv
    have np : ∀ k, ¬ Pending (cs ++ [.value a]) k := by
      intro k; rw [pending_snoc]; rintro (h | ⟨_, _, h⟩)
      · exact nk k h
      · exact h ⟨a, rfl⟩
    cases hk : st.key with
    | none =>
      left
      exact ⟨Or.inl ⟨⟨a, rfl⟩, h.key_none.1 hk⟩, by simp [SerMap.call, hk]⟩
    | some k0 =>
      have hp := (h.key k0).1 hk
      have hpk : ∀ k, Pending cs k ↔ k = k0 := fun k => ⟨fun h' => pending_unique h' hp, by rintro rfl; exact hp⟩
      cases a with
      | panic => left; simp [SerMap.call, hk]
      | err e =>
        right
        refine ⟨by simp [hpk], by simp [SerMap.call, hk], ?_⟩
        simp only [SerMap.call, hk]
        refine ⟨fun k => by simp [np], m, em, hnd, fun k x => ?_⟩
        rw [hm, lastWritten_snoc_none]
        rintro k x (⟨h, _⟩ | h) <;> cases h
      | ok x0 =>
        right
        refine ⟨by simp [hpk], by simp [SerMap.call, hk, em, Value.set], ?_⟩
        simp only [SerMap.call, hk, em, Value.set]
        refine ⟨fun k => by simp [np], _, rfl, ?_, fun k x => ?_⟩
        · exact nodup_insert hnd _ _
        · rw [hmGet_insert, lastWritten_snoc_write cs _ k0 x0]
          · split
            · simp [eq_comm]
            · exact hm k x
          · intro k x; simp [hpk]; constructor <;> rintro ⟨rfl, rfl⟩ <;> exact ⟨rfl, rfl⟩
  | field name a =>
    cases a with
    | panic => left; simp [SerMap.call]
    | err e =>
      right
      refine ⟨by simp, by simp [SerMap.call], ?_⟩
      simp only [SerMap.call]
      exact h.idle (by rintro k ⟨v, hv, _⟩; cases hv) (by rintro ⟨a, ha⟩; cases ha) (by simp)
    | ok x0 =>
      right
      refine ⟨by simp, by simp [SerMap.call, em, Value.set], ?_⟩
      simp only [SerMap.call, em, Value.set]
      refine ⟨fun k => ?_, _, rfl, nodup_insert hnd _ _, fun k x => ?_⟩
      · rw [h.key, pending_snoc]
        constructor
        · exact fun hp => Or.inr ⟨hp, (fun k ⟨v, hv, _⟩ => by cases hv), (fun ⟨a, ha⟩ => by cases ha)⟩
        · rintro (⟨v, hv, _⟩ | h)
          · cases hv
          · exact h.1
      · rw [hmGet_insert, lastWritten_snoc_write cs _ name x0]
        · split
          · simp [eq_comm]
          · exact hm k x
        · intro k x; simp; constructor <;> rintro ⟨rfl, rfl⟩ <;> exact ⟨rfl, rfl⟩

theorem unservable_snoc (cs : List MapCall) (c : MapCall) (i : Nat) :
    Unservable (cs ++ [c]) i ↔ Unservable cs i ∨ (i = cs.length ∧
      (((∃ a, c = .value a) ∧ ∀ k, ¬ Pending cs k) ∨ c = .key .panic ∨ c = .value .panic ∨ ∃ n, c = .field n .panic)) := by
  unfold Unservable
  rcases Nat.lt_trichotomy i cs.length with h | h | h
  · rw [List.getElem?_append_left h, List.take_append_of_le_length (by omega)]
    simp [Nat.ne_of_lt h]
  · subst h
    simp
  · have h1 : (cs ++ [c])[i]? = none := List.getElem?_eq_none (by simp; omega)
    have h2 : cs[i]? = none := List.getElem?_eq_none (by omega)
    rw [h1, h2]; simp; omega

theorem calls_tracks (cs : List MapCall) :
    (SerMap.new.calls cs = none ∧ ∃ i, Unservable cs i) ∨
    (∃ st, SerMap.new.calls cs = some st ∧ (∀ i, ¬ Unservable cs i) ∧ Tracks cs st) := by
  induction cs using List.reverseRecOn with
  | nil =>
    right
    exact ⟨_, rfl, by intro i; simp [Unservable], tracks_nil⟩
  | append_singleton cs c ih =>
    rw [calls_snoc]
    rcases ih with ⟨h, i, hi⟩ | ⟨st, h, hu, ht⟩
    · left; rw [h]
      exact ⟨rfl, i, (unservable_snoc ..).2 (Or.inl hi)⟩
    · rw [h, Option.bind_some]
      rcases tracks_call ht c with ⟨hc, hp⟩ | ⟨hc, hp, htr⟩
      · left
        refine ⟨?_, cs.length, (unservable_snoc ..).2 (Or.inr ⟨rfl, hc⟩)⟩
        generalize st.call c = r at hp ⊢
        obtain ⟨o, s⟩ := r; cases hp; rfl
      · right
        refine ⟨(st.call c).2, ?_, ?_, htr⟩
        · generalize st.call c = r at hp ⊢
          obtain ⟨o, s⟩ := r
          cases o
          · rfl
          · rfl
          · exact absurd rfl hp
        · intro i hi
          rcases (unservable_snoc ..).1 hi with hi | ⟨_, hi⟩
          · exact hu i hi
          · exact hc hi

end Verif
