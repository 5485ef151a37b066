import Verif.Spec.CatchAll
import Verif.Props.FlatChoice
import Verif.Props.Kept
import Verif.Props.Toml
import Verif.Props.Editing
import Verif.Props.TomlMacro
/-!
# C145: a catch-all field keeps the keys a program does not know
-/
namespace Verif.Props
open Verif Verif.Spec

/-! ## Serializing a map with text keys -/

/-- A map with text keys, in any order: each entry is serialized, and that is the result. -/
theorem ser_texts {calls : List (Data × Data)} {ps : List (String × Data)} (hp : calls.Perm (ps.map fun c => (.str c.1, c.2))) (hn : (ps.map Prod.fst).Nodup) (w : Value) :
    ser (.map calls) = .ok w ↔ ∃ kvs : Entries, w = .map kvs ∧ (∃ qs : List (String × Data), calls = qs.map (fun c => (.str c.1, c.2)) ∧ qs.Perm ps ∧
      List.Forall₂ (fun (c : String × Data) kv => kv.1 = c.1 ∧ ser c.2 = .ok kv.2) qs kvs) := by
  have hf : List.Forall₂ (fun (d : Data × Data) (p : String × Data) => d = (.str p.1, p.2)) (ps.map fun c => (.str c.1, c.2)) ps := by
    rw [List.forall₂_map_left_iff]; exact List.forall₂_same.2 fun _ _ => rfl
  obtain ⟨qs, hq, hqp⟩ := List.perm_comp_forall₂ hp hf
  have hcalls : calls = qs.map (fun c => (.str c.1, c.2)) := by
    clear hp hf hqp hn
    induction hq with
    | nil => rfl
    | cons h _ ih => rw [List.map_cons, h, ih]
  have hnq : (qs.map Prod.fst).Nodup := (hqp.map Prod.fst).nodup_iff.2 hn
  rw [ser_map]
  have key : ∀ (qs : List (String × Data)) (kvs : Entries), (List.Forall₂ (fun (e : Data × Data) (kv : String × Value) => (∃ kx, ser e.1 = .ok kx ∧ kx.tryInto .string = .ok kv.1) ∧ ser e.2 = .ok kv.2)
      (qs.map (fun c => (.str c.1, c.2))) kvs ↔ List.Forall₂ (fun (c : String × Data) kv => kv.1 = c.1 ∧ ser c.2 = .ok kv.2) qs kvs) := by
    intro qs kvs
    rw [List.forall₂_map_left_iff]
    have one : ∀ (c : String × Data) (kv : String × Value), ((∃ kx, ser (.str c.1) = .ok kx ∧ kx.tryInto .string = .ok kv.1) ∧ ser c.2 = .ok kv.2) ↔ (kv.1 = c.1 ∧ ser c.2 = .ok kv.2) := by
      intro c kv
      refine and_congr_left fun _ => ?_
      constructor
      · rintro ⟨kx, h1, h2⟩
        cases h1
        exact (Except.ok.inj h2).symm
      · intro h
        exact ⟨.string c.1, rfl, by rw [h]; rfl⟩
    simp only [one]
  constructor
  · rintro ⟨kvs, h1, rfl⟩
    rw [hcalls, key] at h1
    have hk : kvs.map Prod.fst = qs.map Prod.fst := forall2_keys h1 fun _ _ h => h.1
    exact ⟨kvs, by rw [insAll_fresh kvs [] (by simpa [hk] using hnq)]; rfl, qs, hcalls, hqp, h1⟩
  · rintro ⟨kvs, rfl, qs', hc', hqp', h1⟩
    have hk : kvs.map Prod.fst = qs'.map Prod.fst := forall2_keys h1 fun _ _ h => h.1
    have hnq' : (qs'.map Prod.fst).Nodup := (hqp'.map Prod.fst).nodup_iff.2 hn
    exact ⟨kvs, by rw [hc', key]; exact h1, by rw [insAll_fresh kvs [] (by simpa [hk] using hnq')]; rfl⟩

/-- What is under each key then. -/
theorem ser_texts_child {qs ps : List (String × Data)} {kvs : Entries} (hn : (ps.map Prod.fst).Nodup) (hqp : qs.Perm ps)
    (h : List.Forall₂ (fun (c : String × Data) kv => kv.1 = c.1 ∧ ser c.2 = .ok kv.2) qs kvs) :
    (kvs.map Prod.fst).Nodup ∧ (∀ k, k ∉ ps.map Prod.fst → child (.map kvs) (.key k) = none) ∧
      ∀ c ∈ ps, ∃ y, ser c.2 = .ok y ∧ child (.map kvs) (.key c.1) = some y := by
  have hk : kvs.map Prod.fst = qs.map Prod.fst := forall2_keys h fun _ _ h => h.1
  have hnk : (kvs.map Prod.fst).Nodup := by rw [hk]; exact (hqp.map Prod.fst).nodup_iff.2 hn
  refine ⟨hnk, ?_, ?_⟩
  · intro k hnot
    cases hc : child (.map kvs) (.key k) with
    | none => rfl
    | some y =>
      have := (child_mem hnk).1 hc
      exact absurd ((hqp.map Prod.fst).mem_iff.1 (hk ▸ List.mem_map_of_mem this)) hnot
  · intro c hc
    obtain ⟨kv, h1, h2, h3⟩ := forall2_left h c (hqp.mem_iff.2 hc)
    exact ⟨kv.2, h3, (child_mem hnk).2 (by rw [← h2]; exact h1)⟩

/-! ## Reading -/

theorem catchAll_fine (c : CatchAll) (name : String) : ∀ p ∈ [(name, c.part)], FlatFine p.2 := by
  intro p hp
  rw [List.mem_singleton] at hp
  subst hp
  cases c <;> exact trivial

/-- A catch-all gets the entries that are left, as they are. -/
theorem catchAll_gets (c : CatchAll) (name : String) {left : Entries} (hn : (left.map Prod.fst).Nodup) (hu : ∀ e ∈ left, UniqueKeys e.2) (ps : List (String × Data)) :
    FlatGet left [(name, c.part)] ps ↔ ps = [(name, .map (asData left))] := by
  have hval : ∀ e ∈ left, ∀ d, Reader.value.buffered false e.2 = .ok d ↔ d = e.2.toData := by
    intro e he d
    show (deValue e.2 >>= fun w => (.ok w.toData : Outcome ModelError Data)) = _ ↔ _
    rw [deValue_ok _ (hu e he), Outcome.bind_ok, Outcome.ok.injEq]
    exact eq_comm
  cases c with
  | map =>
    have hes : ∀ es : List (Data × Data), List.Forall₂ (fun e (x : Data × Data) => x.1 = .str e.1 ∧ Reader.value.buffered false e.2 = .ok x.2) left es ↔ es = asData left := by
      clear hn ps
      induction left with
      | nil => intro es; rw [List.forall₂_nil_left_iff]; rfl
      | cons e left ih =>
        intro es
        rw [List.forall₂_cons_left_iff]
        constructor
        · rintro ⟨x, es', ⟨h1, h2⟩, h3, rfl⟩
          rw [(ih (fun e he => hu e (by simp [he])) (fun e he => hval e (by simp [he])) es').1 h3]
          show x :: asData left = (Data.str e.1, e.2.toData) :: asData left
          rw [← h1, ← (hval e (by simp) _).1 h2]
        · rintro rfl
          exact ⟨_, _, ⟨rfl, (hval e (by simp) _).2 rfl⟩, (ih (fun e he => hu e (by simp [he])) (fun e he => hval e (by simp [he])) _).2 rfl, rfl⟩
    constructor
    · intro h
      cases h with
      | rest h1 h2 =>
        cases h2
        rw [(hes _).1 h1]
    · rintro rfl
      exact .rest ((hes _).2 rfl) (.nil _)
  | value =>
    have hv : Reader.value.buffered false (.map left) = .ok (.map (asData left)) := by
      show (deValue (.map left) >>= fun w => (.ok w.toData : Outcome ModelError Data)) = _
      rw [deValue_ok _ (uniqueKeys_map.2 ⟨hn, hu⟩), Outcome.bind_ok, Value.toData, toDataEntries_eq]
      rfl
    constructor
    · intro h
      cases h with
      | view h1 h2 =>
        cases h2
        rw [hv, Outcome.ok.injEq] at h1
        rw [h1]
    · rintro rfl
      exact .view hv (.nil _)

/-- **C145.** A program with a catch-all reads a map exactly if its own fields can be read and there is no 128-bit integer under the other keys; the catch-all then holds exactly
the other entries, unchanged. -/
theorem C145_read (k : Keeper) (hf : (k.fields.map RField.name).Nodup) (v : Value) (hu : UniqueKeys v) (hm : v.isMap = true) (d : Data) :
    k.read v = .ok d ↔ ∃ ds, OwnReads k.fields v ds ∧ (∀ key y, key ∉ k.keys → child v (.key key) = some y → ¬ Holds128 y) ∧
      d = .struct (ds ++ [(k.name, .map (asData (without v k.keys)))]) := by
  rw [Keeper.read, C143_flatten k.fields hf _ (catchAll_fine k.kind k.name) v hu hm d]
  cases v with
  | map m =>
    obtain ⟨hn, hue⟩ := uniqueKeys_map.1 hu
    have hg := fun ps => catchAll_gets k.kind k.name (left := without (.map m) (k.fields.map RField.name)) (hn.sublist ((without_sub m _).map _))
      (fun e he => hue e ((without_sub m _).subset he)) ps
    constructor
    · rintro ⟨ds, ps, rfl, h1, h2, h3⟩
      exact ⟨ds, h1, h2, by rw [(hg ps).1 h3]; rfl⟩
    · rintro ⟨ds, h1, h2, rfl⟩
      exact ⟨ds, _, rfl, h1, h2, (hg _).2 rfl⟩
  | _ => cases hm

/-! ## Saving -/

theorem session_map {k : Keeper} {own : List (String × Data)} {v w : Value} (h : Session k own v w) : v.isMap = true := by
  obtain ⟨-, -, -, ds, others, calls, hr, -⟩ := h
  cases v with
  | map m => rfl
  | _ => cases hr

/-- The session in detail. -/
theorem session_iff (k : Keeper) (own : List (String × Data)) (v : Value) (hu : UniqueKeys v) (w : Value) (h : Session k own v w) :
    (∃ ds, OwnReads k.fields v ds) ∧ (∀ key y, key ∉ k.keys → child v (.key key) = some y → ¬ Holds128 y) ∧ ∃ kvs, w = .map kvs ∧ (kvs.map Prod.fst).Nodup ∧ UniqueKeys w ∧
      (∀ c ∈ own, ∃ y, ser c.2 = .ok y ∧ child w (.key c.1) = some y) ∧ (∀ key ∈ k.keys, key ∉ own.map Prod.fst → child w (.key key) = none) ∧
      ∀ key, key ∉ k.keys → child w (.key key) = child v (.key key) := by
  have hm := session_map h
  obtain ⟨hf, hown, hno, ds, others, calls, hr, hc, hw⟩ := h
  obtain ⟨ds', h1, h2, h3⟩ := (C145_read k hf v hu hm _).1 hr
  rw [Data.struct.injEq] at h3
  obtain ⟨-, h4⟩ := List.append_inj' h3 rfl
  simp only [List.cons.injEq, Prod.mk.injEq, Data.map.injEq, true_and, and_true] at h4
  subst h4
  cases v with
  | map m =>
    obtain ⟨hn, hue⟩ := uniqueKeys_map.1 hu
    have hleft : ((without (.map m) k.keys).map Prod.fst).Nodup := hn.sublist ((without_sub m _).map _)
    have hps : ((own ++ (without (.map m) k.keys).map fun e => (e.1, e.2.toData)).map Prod.fst).Nodup := by
      rw [List.map_append, List.map_map, List.nodup_append]
      refine ⟨hno, hleft, ?_⟩
      rintro a ha b hb rfl
      obtain ⟨c, hc, rfl⟩ := List.mem_map.1 ha
      obtain ⟨e, he, hec⟩ := List.mem_map.1 hb
      exact (mem_without.1 he).2 (show e.1 ∈ k.keys from (show e.1 = c.1 from hec) ▸ hown c hc)
    have hperm : calls.Perm ((own ++ (without (.map m) k.keys).map fun e => (e.1, e.2.toData)).map fun c => (.str c.1, c.2)) := by
      rw [List.map_append, List.map_map]
      exact hc
    have hu' := uniqueKeys_ser _ _ hw
    obtain ⟨kvs, rfl, qs, -, hqp, h5⟩ := (ser_texts hperm hps w).1 hw
    obtain ⟨g1, g2, g3⟩ := ser_texts_child hps hqp h5
    refine ⟨⟨ds', h1⟩, h2, kvs, rfl, g1, hu', fun c hc => g3 c (List.mem_append_left _ hc), fun key hk hnot => g2 key ?_, fun key hk => ?_⟩
    · rw [List.map_append, List.map_map, List.mem_append, not_or]
      refine ⟨hnot, ?_⟩
      rintro hmem
      obtain ⟨e, he, hek⟩ := List.mem_map.1 hmem
      exact (mem_without.1 he).2 (show e.1 ∈ k.keys from (show e.1 = key from hek) ▸ hk)
    · cases hx : child (.map m) (.key key) with
      | none =>
        refine g2 key ?_
        rw [List.map_append, List.map_map, List.mem_append, not_or]
        constructor
        · intro hmem
          obtain ⟨c, hc, rfl⟩ := List.mem_map.1 hmem
          exact hk (hown c hc)
        · intro hmem
          obtain ⟨e, he, hek⟩ := List.mem_map.1 hmem
          have : child (.map m) (.key e.1) = some e.2 := (child_mem hn).2 (mem_without.1 he).1
          rw [show e.1 = key from hek, hx] at this
          cases this
      | some x =>
        have hmem := (child_mem hn).1 hx
        obtain ⟨y, hy1, hy2⟩ := g3 (key, x.toData) (List.mem_append_right _ (List.mem_map.2 ⟨(key, x), mem_without.2 ⟨hmem, hk⟩, rfl⟩))
        rcases serializeValue_cases x (hue _ hmem) with ⟨-, hs⟩ | ⟨hs, -⟩
        · rw [hs, Outcome.ok.injEq] at hy1
          rw [hy2, hy1]
        · exact absurd ((no128_iff x).2 (h2 key x hk hx)) hs
  | _ => cases hm

/-- **C145.** Saving never fails on account of the keys the program does not know: if it could read the settings and its own fields can be serialized, there is a result. -/
theorem C145_saves (k : Keeper) (hf : (k.fields.map RField.name).Nodup) (v : Value) (hu : UniqueKeys v) (hm : v.isMap = true) (d : Data) (hd : k.read v = .ok d)
    (own : List (String × Data)) (hown : ∀ c ∈ own, c.1 ∈ k.keys) (hno : (own.map Prod.fst).Nodup) (hs : ∀ c ∈ own, ∃ y, ser c.2 = .ok y) :
    ∃ w, Session k own v w ∧ ∀ ds others calls, d = .struct (ds ++ [(k.name, .map others)]) → FlatCalls own others calls → ∃ w', ser (.map calls) = .ok w' ∧ Same w w' := by
  obtain ⟨ds, h1, h2, rfl⟩ := (C145_read k hf v hu hm _).1 hd
  cases v with
  | map m =>
    obtain ⟨hn, hue⟩ := uniqueKeys_map.1 hu
    have hleft : ((without (.map m) k.keys).map Prod.fst).Nodup := hn.sublist ((without_sub m _).map _)
    have hps : ((own ++ (without (.map m) k.keys).map fun e => (e.1, e.2.toData)).map Prod.fst).Nodup := by
      rw [List.map_append, List.map_map, List.nodup_append]
      refine ⟨hno, hleft, ?_⟩
      rintro a ha b hb rfl
      obtain ⟨c, hc, rfl⟩ := List.mem_map.1 ha
      obtain ⟨e, he, hec⟩ := List.mem_map.1 hb
      exact (mem_without.1 he).2 (show e.1 ∈ k.keys from (show e.1 = c.1 from hec) ▸ hown c hc)
    have hall : ∀ c ∈ own ++ (without (.map m) k.keys).map fun e => (e.1, e.2.toData), ∃ kv : String × Value, kv.1 = c.1 ∧ ser c.2 = .ok kv.2 := by
      intro c hc
      rcases List.mem_append.1 hc with hc | hc
      · obtain ⟨y, hy⟩ := hs c hc
        exact ⟨(c.1, y), rfl, hy⟩
      · obtain ⟨e, he, rfl⟩ := List.mem_map.1 hc
        obtain ⟨he1, he2⟩ := mem_without.1 he
        rcases serializeValue_cases e.2 (hue e he1) with ⟨-, hs⟩ | ⟨hs, -⟩
        · exact ⟨e, rfl, hs⟩
        · exact absurd ((no128_iff e.2).2 (h2 e.1 e.2 he2 ((child_mem hn).2 he1))) hs
    have any : ∀ calls, FlatCalls own (asData (without (.map m) k.keys)) calls → ∃ w, ser (.map calls) = .ok w := by
      intro calls hc
      have hperm : calls.Perm ((own ++ (without (.map m) k.keys).map fun e => (e.1, e.2.toData)).map fun c => (.str c.1, c.2)) := by
        rw [List.map_append, List.map_map]
        exact hc
      have hf2 : List.Forall₂ (fun (d : Data × Data) (p : String × Data) => d = (.str p.1, p.2))
          ((own ++ (without (.map m) k.keys).map fun e => (e.1, e.2.toData)).map fun c => (.str c.1, c.2)) (own ++ (without (.map m) k.keys).map fun e => (e.1, e.2.toData)) := by
        rw [List.forall₂_map_left_iff]; exact List.forall₂_same.2 fun _ _ => rfl
      obtain ⟨qs, hq, hqp⟩ := List.perm_comp_forall₂ hperm hf2
      have hcalls : calls = qs.map (fun c => (.str c.1, c.2)) := by
        clear hperm hf2 hqp hps hall hc
        induction hq with
        | nil => rfl
        | cons h _ ih => rw [List.map_cons, h, ih]
      obtain ⟨kvs, hk⟩ := forall2_exists (R := fun (c : String × Data) (kv : String × Value) => kv.1 = c.1 ∧ ser c.2 = .ok kv.2) fun c hc => hall c (hqp.mem_iff.1 hc)
      exact ⟨_, (ser_texts hperm hps _).2 ⟨kvs, rfl, qs, hcalls, hqp, hk⟩⟩
    have sess : ∀ calls w, FlatCalls own (asData (without (.map m) k.keys)) calls → ser (.map calls) = .ok w → Session k own (.map m) w :=
      fun calls w hc hw => ⟨hf, hown, hno, ds, _, calls, hd, hc, hw⟩
    obtain ⟨w, hw⟩ := any _ (List.Perm.refl _)
    have hS := sess _ w (List.Perm.refl _) hw
    refine ⟨w, hS, ?_⟩
    intro ds' others calls he hc
    rw [Data.struct.injEq] at he
    obtain ⟨-, h4⟩ := List.append_inj' he rfl
    simp only [List.cons.injEq, Prod.mk.injEq, Data.map.injEq, true_and, and_true] at h4
    subst h4
    obtain ⟨w', hw'⟩ := any calls hc
    refine ⟨w', hw', ?_⟩
    obtain ⟨-, -, kvs, rfl, a1, a2, a3, a4, a5⟩ := session_iff k own _ hu w hS
    obtain ⟨-, -, kvs', rfl, b1, b2, b3, b4, b5⟩ := session_iff k own _ hu w' (sess calls w' hc hw')
    have hch : ∀ key, child (.map kvs) (.key key) = child (.map kvs') (.key key) := by
      intro key
      by_cases hk : key ∈ k.keys
      · by_cases hk' : key ∈ own.map Prod.fst
        · obtain ⟨c, hc, rfl⟩ := List.mem_map.1 hk'
          obtain ⟨y, y1, y2⟩ := a3 c hc
          obtain ⟨z, z1, z2⟩ := b3 c hc
          rw [y1, Outcome.ok.injEq] at z1
          rw [y2, z2, z1]
        · rw [a4 key hk hk', b4 key hk hk']
      · rw [a5 key hk, b5 key hk]
    intro p
    cases p with
    | nil => rfl
    | cons s p =>
      cases s with
      | key key =>
        have := hch key
        show (child (.map kvs) (.key key)).bind _ = (child (.map kvs') (.key key)).bind _
        rw [this]
      | idx i => rfl
  | _ => cases hm

/-- **C145.** Whatever a program with a catch-all does to its own fields: after it has saved, each of them is what it wrote (nothing, if the field was skipped), and every key it does not
know has exactly the value it had before. -/
theorem C145_save (k : Keeper) (own : List (String × Data)) (v : Value) (hu : UniqueKeys v) (w : Value) (h : Session k own v w) :
    w.isMap = true ∧ UniqueKeys w ∧ ∀ key, child w (.key key) = if key ∈ k.keys then writes own key else child v (.key key) := by
  obtain ⟨-, -, kvs, rfl, -, a2, a3, a4, a5⟩ := session_iff k own v hu w h
  refine ⟨rfl, a2, fun key => ?_⟩
  split
  · next hk =>
    by_cases hk' : key ∈ own.map Prod.fst
    · cases hg : hmGet own key with
      | none => exact absurd hk' ((hmGet_eq_none).1 hg)
      | some c =>
        obtain ⟨y, y1, y2⟩ := a3 (key, c) (hmGet_mem hg)
        rw [y2, writes, hg]
        simp only [y1]
    · rw [a4 key hk hk', writes, (hmGet_eq_none).2 hk']
  · next hk => exact a5 key hk

/-- **C145**, reading again: the program finds its fields as it has left them and the same other keys with the same values (perhaps in another order). -/
theorem C145_again (k : Keeper) (own : List (String × Data)) (v : Value) (hu : UniqueKeys v) (w : Value) (h : Session k own v w)
    (ds : List (String × Data)) (hds : List.Forall₂ (fun f (nd : String × Data) => nd.1 = f.name ∧
      ((∃ c, (f.name, c) ∈ own ∧ Kept .direct f.reader c nd.2) ∨ (f.name ∉ own.map Prod.fst ∧ f.missing = .ok nd.2))) k.fields ds) :
    ∃ old others others', k.read v = .ok (.struct (old ++ [(k.name, .map others)])) ∧ k.read w = .ok (.struct (ds ++ [(k.name, .map others')])) ∧ others'.Perm others := by
  have hf := h.1
  have hm := session_map h
  obtain ⟨⟨old, h1⟩, h2, kvs, rfl, a1, a2, a3, a4, a5⟩ := session_iff k own v hu w h
  refine ⟨old, _, _, (C145_read k hf v hu hm _).2 ⟨old, h1, h2, rfl⟩, (C145_read k hf _ a2 rfl _).2 ⟨ds, ?_, ?_, rfl⟩, ?_⟩
  · refine forall2_of_index (forall2_index hds).1 fun i f nd hfi hnd => ?_
    obtain ⟨g1, g2⟩ := (forall2_index hds).2 i f nd hfi hnd
    have hk : f.name ∈ k.keys := List.mem_map_of_mem (List.mem_of_getElem? hfi)
    refine ⟨g1, ?_⟩
    rcases g2 with ⟨c, hc, y, hy, hr⟩ | ⟨hnot, hmiss⟩
    · obtain ⟨z, z1, z2⟩ := a3 _ hc
      rw [hy, Outcome.ok.injEq] at z1
      subst z1
      constructor
      · intro x hx
        rw [z2, Option.some.injEq] at hx
        rw [← hx]; exact hr
      · intro hx
        rw [z2] at hx; cases hx
    · have := a4 f.name hk hnot
      exact ⟨fun x hx => (by rw [this] at hx; cases hx), fun _ => hmiss⟩
  · intro key y hk hc
    rw [a5 key hk] at hc
    exact h2 key y hk hc
  · cases v with
    | map m =>
      obtain ⟨hn, -⟩ := uniqueKeys_map.1 hu
      refine List.Perm.map _ ?_
      have n1 : (without (.map kvs) k.keys).Nodup := List.Nodup.of_map _ (a1.sublist ((without_sub kvs _).map _))
      have n2 : (without (.map m) k.keys).Nodup := List.Nodup.of_map _ (hn.sublist ((without_sub m _).map _))
      rw [List.perm_ext_iff_of_nodup n1 n2]
      intro e
      rw [mem_without, mem_without, ← child_mem a1, ← child_mem hn]
      exact and_congr_left fun hk => by rw [a5 e.1 hk]
    | _ => cases hm

/-- **C145**, any number of programs (or versions) that each keep what they do not know, one after the other: a key has what the last one that knows it wrote, whoever came in between; and
what it had at the start if no one knows it. -/
theorem C145_history (v w : Value) (hu : UniqueKeys v) (hist : List (Keeper × List (String × Data))) (h : Sessions v hist w) (key : String) :
    (∃ pre k own post, hist = pre ++ (k, own) :: post ∧ key ∈ k.keys ∧ (∀ a ∈ post, key ∉ a.1.keys) ∧ child w (.key key) = writes own key) ∨
    ((∀ a ∈ hist, key ∉ a.1.keys) ∧ child w (.key key) = child v (.key key)) := by
  induction h with
  | nil v => exact Or.inr ⟨by simp, rfl⟩
  | @cons v u w k own r h1 h2 ih =>
    obtain ⟨b1, b2, b3⟩ := C145_save k own v hu u h1
    rcases ih b2 with ⟨pre, k', own', post, rfl, c1, c2, c3⟩ | ⟨c1, c2⟩
    · exact Or.inl ⟨(k, own) :: pre, k', own', post, rfl, c1, c2, c3⟩
    · by_cases hk : key ∈ k.keys
      · refine Or.inl ⟨[], k, own, r, rfl, hk, c1, ?_⟩
        rw [c2, b3, if_pos hk]
      · refine Or.inr ⟨?_, ?_⟩
        · intro a ha
          rcases List.mem_cons.1 ha with rfl | ha
          · exact hk
          · exact c1 a ha
        · rw [c2, b3, if_neg hk]

theorem shared_append {ks : Nat → Keeper} {a b : List Turn} : ∀ {file : Value} {held : Nat → Option Value} {file' : Value} {held' : Nat → Option Value},
    Shared ks file held (a ++ b) file' held' → ∃ f h, Shared ks file held a f h ∧ Shared ks f h b file' held' := by
  induction a with
  | nil => intro file held file' held' h; exact ⟨file, held, .nil _ _, h⟩
  | cons t a ih =>
    intro file held file' held' h
    cases h with
    | load i h1 h2 =>
      obtain ⟨f, g, h3, h4⟩ := ih h2
      exact ⟨f, g, .load i h1 h3, h4⟩
    | save i own h1 h2 h3 =>
      obtain ⟨f, g, h4, h5⟩ := ih h3
      exact ⟨f, g, .save i own h1 h2 h4, h5⟩

theorem shared_held {ks : Nat → Keeper} {ts : List Turn} {i : Nat} (hno : Turn.load i ∉ ts) {file : Value} {held : Nat → Option Value} {file' : Value} {held' : Nat → Option Value}
    (h : Shared ks file held ts file' held') : held' i = held i := by
  induction h with
  | nil => rfl
  | @load file held ts file' held' j h1 h2 ih =>
    rw [ih (fun hm => hno (List.mem_cons_of_mem _ hm))]
    have : i ≠ j := by rintro rfl; exact hno List.mem_cons_self
    simp only [this, if_false]
  | save j own h1 h2 h3 ih => exact ih fun hm => hno (List.mem_cons_of_mem _ hm)

theorem shared_file {ks : Nat → Keeper} {ts : List Turn} (hno : ∀ i own, Turn.save i own ∉ ts) {file : Value} {held : Nat → Option Value} {file' : Value} {held' : Nat → Option Value}
    (h : Shared ks file held ts file' held') : file' = file := by
  induction h with
  | nil => rfl
  | load j h1 h2 ih => exact ih fun i own hm => hno i own (List.mem_cons_of_mem _ hm)
  | save j own h1 h2 h3 ih => exact absurd List.mem_cons_self (hno j own)

theorem shared_unique {ks : Nat → Keeper} {ts : List Turn} {file : Value} {held : Nat → Option Value} {file' : Value} {held' : Nat → Option Value}
    (h : Shared ks file held ts file' held') (hu : UniqueKeys file) (hh : ∀ i v, held i = some v → UniqueKeys v) : UniqueKeys file' ∧ ∀ i v, held' i = some v → UniqueKeys v := by
  induction h with
  | nil => exact ⟨hu, hh⟩
  | load j h1 h2 ih =>
    refine ih hu fun i v hv => ?_
    dsimp only at hv
    split at hv
    · cases hv; exact hu
    · exact hh i v hv
  | save j own h1 h2 h3 ih => exact ih (C145_save _ _ _ (hh _ _ h1) _ h2).2.1 hh

/-- **C145**, when they do not take turns: programs load and save in any interleaving. At every moment after the first save the value is that of the last saver: its own fields as it wrote them,
and under every other key what was there when it last loaded — whatever others have saved there in the meantime is undone. -/
theorem C145_last_saver (ks : Nat → Keeper) (file : Value) (hu : UniqueKeys file) (before since after : List Turn) (i : Nat) (own : List (String × Data)) (file' : Value)
    (held' : Nat → Option Value) (hl : Turn.load i ∉ since) (hs : ∀ j o, Turn.save j o ∉ after)
    (h : Shared ks file (fun _ => none) (before ++ .load i :: since ++ .save i own :: after) file' held') :
    ∃ seen held, Shared ks file (fun _ => none) before seen held ∧
      ∀ key, child file' (.key key) = if key ∈ (ks i).keys then writes own key else child seen (.key key) := by
  rw [List.append_assoc] at h
  obtain ⟨seen, held, h1, h2⟩ := shared_append h
  refine ⟨seen, held, h1, fun key => ?_⟩
  obtain ⟨u1, u2⟩ := shared_unique h1 hu (by intro i v h; cases h)
  rw [List.cons_append] at h2
  cases h2 with
  | load _ a1 a2 =>
    obtain ⟨f, g, b1, b2⟩ := shared_append a2
    cases b2 with
    | save _ _ c1 c2 c3 =>
      rw [shared_held hl b1] at c1
      simp only [if_true, Option.some.injEq] at c1
      subst c1
      rw [shared_file hs c3]
      exact (C145_save _ _ _ u1 _ c2).2.2 key

/-- **C145**, without a catch-all: a struct that is serialized has nothing under any other key. What the file had there is lost. -/
theorem C145_lost (own : List (String × Data)) (w : Value) (h : ser (.struct own) = .ok w) (key : String) (hk : key ∉ own.map Prod.fst) : child w (.key key) = none := by
  obtain ⟨kvs, h1, rfl⟩ := ser_struct.1 h
  have hkv : kvs.map Prod.fst = own.map Prod.fst := forall2_keys h1 fun _ _ h => h.1
  rw [child_key_map, hmGet_eq_none]
  intro hmem
  refine hk (hkv ▸ ?_)
  have : ∀ (kvs m : Entries), key ∈ (insAll m kvs).map Prod.fst → key ∈ m.map Prod.fst ∨ key ∈ kvs.map Prod.fst := by
    intro kvs
    induction kvs with
    | nil => intro m h; exact Or.inl h
    | cons e r ih =>
      intro m h
      rw [insAll_cons] at h
      rcases ih _ h with h | h
      · by_cases he : e.1 = key
        · exact Or.inr (by simp [he])
        · refine Or.inl ?_
          by_contra hno
          have h0 := (hmGet_eq_none (m := m) (k := key)).2 hno
          have h3 : hmGet (hmInsert m e.1 e.2) key = none := by rw [hmGet_insert, if_neg he]; exact h0
          exact (hmGet_eq_none).1 h3 h
      · exact Or.inr (by simp [h])
  rcases this kvs [] hmem with h | h
  · cases h
  · exact h

/-- **C145**, through a TOML file: the program loads the file layer (`v`), changes its own fields, saves. Reading the layer again shows under every key the program does not know what
was there before: up to the kind of integers, and without entries that are `None`. -/
theorem C145_toml {limit : Nat} {cd : Codec} (ht : TomlLike limit cd) (world world' : World) (path : OsStr) (v : Value) (hu : UniqueKeys v)
    (k : Keeper) (own : List (String × Data)) (w : Value) (h : Session k own v w)
    (hdepth : DepthBelow w limit) (hok : (Layer.newFile (textHandler cd) path).writeValue world w = (.ok (), world'))
    (hread : ∀ bs code wr, world.disk (world.locate path) ≠ .file bs (some code) wr) :
    ∃ r, (Layer.newFile (textHandler cd) path).readValue world' = .ok r ∧ UniqueKeys r ∧ AlikeOmitting w r ∧ ∀ key, key ∉ k.keys → AlikeUnder key v r := by
  obtain ⟨b1, b2, b3⟩ := C145_save k own v hu w h
  obtain ⟨r, r1, r2, r3⟩ := C84_read_back ht world world' path w b2 hdepth hok hread
  refine ⟨r, r1, r3, r2, fun key hk p => ?_⟩
  have hview : view w (.key key :: p) = view v (.key key :: p) := by
    rw [view_cons, view_cons, b3 key, if_neg hk]
  have := r2 (.key key :: p)
  rw [NullEntry, hview, ← NullEntry] at this
  exact this

theorem alikeUnder_trans {key : String} {a b c : Value} (h : AlikeUnder key a b) (h' : AlikeUnder key b c) : AlikeUnder key a c := by
  have gone : ∀ p, view b (.key key :: p) = none → view c (.key key :: p) = none := by
    intro p hb
    rcases (h' p).2 (fun hn => by rw [hn.2] at hb; cases hb) with ⟨-, h2⟩ | ⟨x, y, h1, -⟩
    · exact h2
    · rw [hb] at h1; cases h1
  intro p
  constructor
  · intro hn
    exact gone p ((h p).1 hn)
  · intro hn
    rcases (h p).2 hn with ⟨h1, h2⟩ | ⟨x, y, h1, h2, h3⟩
    · exact Or.inl ⟨h1, gone p h2⟩
    · have hnb : ¬ NullEntry b (.key key :: p) := by
        rintro ⟨g1, g2⟩
        rw [h2, Option.some.injEq] at g2
        subst g2
        rw [headAlike_none (headAlike_symm h3)] at h1
        exact hn ⟨g1, h1⟩
      rcases (h' p).2 hnb with ⟨g1, -⟩ | ⟨y', z, g1, g2, g3⟩
      · rw [h2] at g1; cases g1
      · rw [h2, Option.some.injEq] at g1
        subst g1
        exact Or.inr ⟨x, z, h1, g2, headAlike_trans h3 g3⟩

theorem alikeUnder_of {key : String} {a b : Value} (h : AlikeOmitting a b) : AlikeUnder key a b := fun p => h (.key key :: p)

/-- **C145**, any number of programs that each keep what they do not know, taking turns with one TOML file: each key has what the last one that knows it has written, and what it had at
the start if none knows it (up to the kind of integers, without entries that are `None`). -/
theorem C145_files {limit : Nat} {cd : Codec} (ht : TomlLike limit cd) (path : OsStr) (world world' : World) (hist : List (Keeper × List (String × Data)))
    (h : FileSessions limit cd path world hist world') (hne : hist ≠ []) (v : Value) (hv : (Layer.newFile (textHandler cd) path).readValue world = .ok v) :
    ∃ r, (Layer.newFile (textHandler cd) path).readValue world' = .ok r ∧ ∀ key,
      (∃ pre k own post, hist = pre ++ (k, own) :: post ∧ key ∈ k.keys ∧ (∀ a ∈ post, key ∉ a.1.keys) ∧
        ∃ s, child s (.key key) = writes own key ∧ AlikeUnder key s r) ∨
      ((∀ a ∈ hist, key ∉ a.1.keys) ∧ AlikeUnder key v r) := by
  induction h generalizing v with
  | nil => exact absurd rfl hne
  | @cons world world1 world2 v' w k own rest h1 h2 h3 h4 h5 h6 ih =>
    rw [hv, Except.ok.injEq] at h1
    subst h1
    have hu := file_unique hv
    obtain ⟨r1, a1, a2, a3, a4⟩ := C145_toml ht world world1 path v hu k own w h2 h3 h5 h4
    obtain ⟨b1, b2, b3⟩ := C145_save k own v hu w h2
    have here : ∀ key, key ∈ k.keys → child w (.key key) = writes own key ∧ AlikeUnder key w r1 := fun key hk => ⟨by rw [b3, if_pos hk], alikeUnder_of a3⟩
    by_cases hrest : rest = []
    · subst hrest
      cases h6
      refine ⟨r1, a1, fun key => ?_⟩
      by_cases hk : key ∈ k.keys
      · exact Or.inl ⟨[], k, own, [], rfl, hk, by simp, w, here key hk⟩
      · exact Or.inr ⟨by simpa using hk, a4 key hk⟩
    · obtain ⟨r, c1, c2⟩ := ih hrest r1 a1
      refine ⟨r, c1, fun key => ?_⟩
      rcases c2 key with ⟨pre, k', own', post, rfl, d1, d2, d3⟩ | ⟨d1, d2⟩
      · exact Or.inl ⟨(k, own) :: pre, k', own', post, rfl, d1, d2, d3⟩
      · by_cases hk : key ∈ k.keys
        · exact Or.inl ⟨[], k, own, rest, rfl, hk, d1, w, (here key hk).1, alikeUnder_trans (here key hk).2 d2⟩
        · refine Or.inr ⟨?_, alikeUnder_trans (a4 key hk) d2⟩
          intro a ha
          rcases List.mem_cons.1 ha with rfl | ha
          · exact hk
          · exact d1 a ha

/-- **C145**, a trap: if the program reads the whole configuration instead of the layer it saves to, the catch-all takes what other layers say, too. An environment variable that lands
under a key it does not know ends up in what it saves, as text. -/
theorem C145_env (b : Build) (fm : Formats) (calls : List RegCall) (world : World) (skip : Bool) (v : Value)
    (h : (register b fm calls).buildValue world skip = .ok v) (hp : ∀ e ∈ firsts (offers b fm calls), Proper e.2)
    (lower upper : List (String × Layer)) (name pre P : String)
    (hlayers : firsts (offers b fm calls) = lower ++ (name, Layer.newEnvironment pre) :: upper) (hP : Trimmed pre P) (hne : P ≠ "")
    (key s : String) (hup : entriesAt world upper key = []) (before after : List (OsStr × OsStr)) (var : OsStr × OsStr)
    (henv : world.env = before ++ var :: after) (hl : Lands P var key) (hs : HasText var s)
    (hlast : ∀ a ∈ after, ¬ (Lands P a key ∧ ∃ t, HasText a t)) (k : Keeper) (hk : key ∉ k.keys) (own : List (String × Data)) (w : Value) (hw : Session k own v w) :
    child w (.key key) = some (.string s) := by
  obtain ⟨hvm, hvu⟩ := C08_map b fm calls world skip v h
  have hget := (C76_env_typed b fm calls world skip v h hp lower upper name pre P hlayers hP hne key s hup before after var henv hl hs hlast).1
  rw [(C145_save k own v (hvu hp) w hw).2.2 key, if_neg hk]
  cases v with
  | map m =>
    rw [child_key_map]
    simp only [Value.get] at hget
    cases hg : hmGet m key with
    | none => rw [hg] at hget; cases hget
    | some x => rw [hg] at hget; exact congrArg some hget
  | _ => cases hvm

/-! ## Examples -/

/-- `struct Old { name: String, #[serde(flatten)] other: HashMap<String, Value> }`, the version before `port` came. -/
def exOldKeeper (c : CatchAll) : Keeper := ⟨exOptOwn, "other", c⟩
/-- A file of the newer version. -/
def exNewFile : Value := .map [("port", .integer ⟨80, by decide⟩), ("name", .string "a"), ("tls", .map [("cert", .string "c"), ("ca", .none)])]

theorem exNewFile_unique : UniqueKeys exNewFile := by
  simp [exNewFile, UniqueKeys, UniqueKeysMap, UniqueKeysEntry]

example (c : CatchAll) : (exOldKeeper c).read exNewFile = .ok (.struct [("name", .str "a"),
    ("other", .map [(.str "port", .int .i64 ⟨80, by decide⟩), (.str "tls", .map [(.str "cert", .str "c"), (.str "ca", .none)])])]) := by
  cases c <;> rfl

/-- The old version renames the application and saves. -/
theorem exOld_session (c : CatchAll) : Session (exOldKeeper c) [("name", .str "b")] exNewFile
    (.map [("tls", .map [("cert", .string "c"), ("ca", .none)]), ("name", .string "b"), ("port", .integer ⟨80, by decide⟩)]) :=
  ⟨by simp [exOldKeeper, exOptOwn], by simp [exOldKeeper, exOptOwn, Keeper.keys], by simp, [("name", .str "a")], _,
    [(.str "tls", .map [(.str "cert", .str "c"), (.str "ca", .none)]), (.str "name", .str "b"), (.str "port", .int .i64 ⟨80, by decide⟩)],
    (by cases c <;> rfl : _ = Outcome.ok (Data.struct ([("name", .str "a")] ++ [("other", .map [(.str "port", .int .i64 ⟨80, by decide⟩),
      (.str "tls", .map [(.str "cert", .str "c"), (.str "ca", .none)])])]))), by
      refine List.Perm.trans (List.Perm.swap _ _ _) (List.Perm.cons _ (List.Perm.swap _ _ _)), rfl⟩

/-- A 128-bit integer it does not know of keeps it from reading. -/
example (c : CatchAll) : ∀ d, (exOldKeeper c).read (.map [("name", .string "a"), ("big", .longInteger ⟨1, by decide⟩)]) ≠ .ok d := by
  intro d h
  cases c <;> cases h

/-- The keys survive a session of the old version between two of the new one. -/
example (c : CatchAll) (w : Value) (h : Sessions exNewFile [(exOldKeeper c, [("name", .str "b")]), (exOldKeeper .map, [])] w) :
    child w (.key "port") = some (.integer ⟨80, by decide⟩) := by
  rcases C145_history _ _ exNewFile_unique _ h "port" with ⟨pre, k, own, post, h1, h2, -⟩ | ⟨-, h2⟩
  · exfalso
    have : (k, own) ∈ [(exOldKeeper c, [("name", Data.str "b")]), (exOldKeeper .map, [])] := by rw [h1]; simp
    simp only [List.mem_cons, Prod.mk.injEq, List.not_mem_nil, or_false] at this
    rcases this with ⟨rfl, -⟩ | ⟨rfl, -⟩ <;> simp [exOldKeeper, Keeper.keys, exOptOwn] at h2
  · rw [h2]; rfl

/-- A program that knows `tags` only, on a TOML file: it sets another tag, the port stays. -/
def exTagKeeper : Keeper := ⟨[⟨"tags", Reader.vec Reader.string, .err (.deserializationError "missing field `tags`")⟩], "other", .value⟩
def exTagFile : Value := .map [("port", .integer ⟨80, by decide⟩), ("tags", .array [])]

theorem exTag_session : Session exTagKeeper [("tags", .seq [.str "a"])] exTagFile (.map [("port", .integer ⟨80, by decide⟩), ("tags", .array [.string "a"])]) :=
  ⟨by simp [exTagKeeper], by simp [exTagKeeper, Keeper.keys], by simp, [("tags", .seq [])], _, [(.str "port", .int .i64 ⟨80, by decide⟩), (.str "tags", .seq [.str "a"])],
    (rfl : _ = Outcome.ok (Data.struct ([("tags", .seq [])] ++ [("other", .map [(.str "port", .int .i64 ⟨80, by decide⟩)])]))), List.Perm.swap _ _ _, rfl⟩

theorem exTag_depth : DepthBelow (.map [("port", .integer ⟨80, by decide⟩), ("tags", .array [.string "a"])]) 80 := by
  intro p hp
  have := exSaved_depth p
  refine this ?_
  intro h
  refine hp ?_
  cases p with
  | nil => cases h
  | cons s p =>
    cases s with
    | idx i => rfl
    | key k =>
      rw [exSaved, view_key_map] at h
      rw [view_key_map]
      simp only [hmGet] at h ⊢
      split
      · next hk => rw [if_pos hk] at h; exact h
      · next hk =>
        rw [if_neg hk] at h
        split
        · next hk' =>
          subst hk'
          exact h
        · rfl

/-- The saved settings are read back, and the port is still there. -/
example : ∃ world' r, (Layer.newFile (textHandler exToml) (os "/c.toml")).writeValue exDisk (.map [("port", .integer ⟨80, by decide⟩), ("tags", .array [.string "a"])]) = (.ok (), world') ∧
    (Layer.newFile (textHandler exToml) (os "/c.toml")).readValue world' = .ok r ∧ ∃ h, view r [.key "port"] = some h ∧ HeadAlike (.integer ⟨80, by decide⟩) h := by
  have hold : TomlHolds (.map [("port", .integer ⟨80, by decide⟩), ("tags", .array [.string "a"])]) := by
    refine .map ?_
    intro e he
    simp only [List.mem_cons, List.not_mem_nil, or_false] at he
    rcases he with rfl | rfl
    · intro _; exact .integer _
    · intro _
      refine .array ?_
      intro x hx
      simp only [List.mem_cons, List.not_mem_nil, or_false] at hx
      subst hx
      exact .string _
  obtain ⟨world', hok⟩ := (C84_write (exToml_like 80) exDisk (os "/c.toml") _).2 ⟨rfl, hold⟩ _ rfl rfl
  obtain ⟨r, h1, -, -, h2⟩ := C145_toml (exToml_like 80) exDisk world' (os "/c.toml") exTagFile
    (by simp [exTagFile, UniqueKeys, UniqueKeysMap, UniqueKeysEntry, UniqueKeysList]) exTagKeeper _ _ exTag_session exTag_depth hok (by intro bs code wr h; cases h)
  refine ⟨world', r, hok, h1, ?_⟩
  have hv : view exTagFile [.key "port"] = some (.integer ⟨80, by decide⟩) := rfl
  rcases (h2 "port" (by simp [exTagKeeper, Keeper.keys]) []).2 (by rintro ⟨-, hn⟩; cases hn) with ⟨a, -⟩ | ⟨a, b, h3, h4, h5⟩
  · cases a
  · rw [hv, Option.some.injEq] at h3
    subst h3
    exact ⟨b, h4, h5⟩

/-- A first session on a file that does not exist yet, by a program for which `tags` may be absent. -/
def exTagKeeper0 : Keeper := ⟨[⟨"tags", Reader.vec Reader.string, .ok (.seq [])⟩], "other", .map⟩

theorem exTag0_session : Session exTagKeeper0 [("tags", .seq [.str "a"])] (.map []) (.map [("tags", .array [.string "a"])]) :=
  ⟨by simp [exTagKeeper0], by simp [exTagKeeper0, Keeper.keys], by simp, [("tags", .seq [])], _, [(.str "tags", .seq [.str "a"])],
    (rfl : _ = Outcome.ok (Data.struct ([("tags", .seq [])] ++ [("other", .map [])]))), List.Perm.refl _, rfl⟩

example : ∃ world' r, FileSessions 80 exToml (os "/c.toml") exDisk [(exTagKeeper0, [("tags", .seq [.str "a"])])] world' ∧
    (Layer.newFile (textHandler exToml) (os "/c.toml")).readValue world' = .ok r ∧ view r [.key "port"] = none ∧ ∃ h, view r [.key "tags", .idx 0] = some h ∧ HeadAlike (.string "a") h := by
  have hold : TomlHolds (.map [("tags", .array [.string "a"])]) := by
    refine .map ?_
    intro e he
    simp only [List.mem_cons, List.not_mem_nil, or_false] at he
    subst he
    intro _
    refine .array ?_
    intro x hx
    simp only [List.mem_cons, List.not_mem_nil, or_false] at hx
    subst hx
    exact .string _
  have hdepth : DepthBelow (.map [("tags", .array [.string "a"])]) 80 := by
    intro p hp
    refine exTag_depth p fun h => hp ?_
    cases p with
    | nil => cases h
    | cons s p =>
      cases s with
      | idx i => rfl
      | key k =>
        rw [view_key_map] at h ⊢
        simp only [hmGet] at h ⊢
        split
        · next hk =>
          subst hk
          exact h
        · rfl
  have hempty : (Layer.newFile (textHandler exToml) (os "/c.toml")).readValue exDisk = .ok (.map []) := rfl
  obtain ⟨world', hok⟩ := (C84_write (exToml_like 80) exDisk (os "/c.toml") _).2 ⟨rfl, hold⟩ _ rfl rfl
  have hs : FileSessions 80 exToml (os "/c.toml") exDisk [(exTagKeeper0, [("tags", .seq [.str "a"])])] world' :=
    .cons hempty exTag0_session hdepth (by intro bs code wr h; cases h) hok (.nil _)
  obtain ⟨r, h1, h2⟩ := C145_files (exToml_like 80) _ _ _ _ hs (by simp) _ hempty
  refine ⟨world', r, hs, h1, ?_, ?_⟩
  · rcases h2 "port" with ⟨pre, k, own, post, h3, h4, -⟩ | ⟨-, h3⟩
    · have : (k, own) ∈ [(exTagKeeper0, [("tags", Data.seq [.str "a"])])] := by rw [h3]; simp
      simp only [List.mem_cons, Prod.mk.injEq, List.not_mem_nil, or_false] at this
      rw [this.1] at h4
      simp [exTagKeeper0, Keeper.keys] at h4
    · rcases (h3 []).2 (by rintro ⟨-, hn⟩; cases hn) with ⟨-, h4⟩ | ⟨a, b, h4, -⟩
      · exact h4
      · cases h4
  · rcases h2 "tags" with ⟨pre, k, own, post, h3, h4, -, s, h5, h6⟩ | ⟨h3, -⟩
    · have : (k, own) ∈ [(exTagKeeper0, [("tags", Data.seq [.str "a"])])] := by rw [h3]; simp
      simp only [List.mem_cons, Prod.mk.injEq, List.not_mem_nil, or_false] at this
      rw [this.2] at h5
      have h5 : child s (.key "tags") = some (.array [.string "a"]) := h5
      have hv : view s [.key "tags", .idx 0] = some (.string "a") := by rw [view_cons, h5]; rfl
      rcases (h6 [.idx 0]).2 (by rintro ⟨-, hn⟩; rw [hv] at hn; cases hn) with ⟨a, -⟩ | ⟨a, b, h7, h8, h9⟩
      · rw [hv] at a; cases a
      · rw [hv, Option.some.injEq] at h7
        subst h7
        exact ⟨b, h8, h9⟩
    · exact absurd (by simp [exTagKeeper0, Keeper.keys]) (h3 _ (List.mem_singleton.2 rfl))

/-- Two programs load, the first changes the port, the second (which does not know the port) saves: the port is as before. -/
example (ks : Nat → Keeper) (h1 : (ks 1).keys = ["name"]) (file' : Value) (held' : Nat → Option Value) (own : List (String × Data))
    (h : Shared ks exNewFile (fun _ => none) [.load 0, .load 1, .save 0 own, .save 1 [("name", .str "b")]] file' held') :
    child file' (.key "port") = some (.integer ⟨80, by decide⟩) ∧ child file' (.key "name") = some (.string "b") := by
  obtain ⟨seen, held, a1, a2⟩ := C145_last_saver ks exNewFile exNewFile_unique [.load 0] [.save 0 own] [] 1 [("name", .str "b")] file' held' (by simp) (by simp) h
  have : seen = exNewFile := shared_file (by simp) a1
  subst this
  rw [a2, a2, h1]
  exact ⟨rfl, rfl⟩

/-- There are such runs: two old versions load, then both save. -/
example : ∃ file' held', Shared (fun _ => exOldKeeper .map) exNewFile (fun _ => none) [.load 0, .load 1, .save 0 [("name", .str "b")], .save 1 [("name", .str "b")]] file' held' :=
  have hr : ∃ d, (exOldKeeper .map).read exNewFile = .ok d := ⟨_, rfl⟩
  ⟨_, _, .load 0 hr (.load 1 hr (.save (v := exNewFile) 0 _ rfl (exOld_session .map) (.save (v := exNewFile) 1 _ rfl (exOld_session .map) (.nil _ _))))⟩

/-- The trap on a case: `APP_token` ends up in what is saved. -/
example (v w : Value) (h : (register exB1 exFormats [.memory "d" (.map [("name", .string "a")]), .environment "env" "APP_"]).buildValue
      { exFresh with env := [(os "APP_token", os "8080")] } false = .ok v) (hw : Session (exOldKeeper .map) [("name", .str "b")] v w) :
    child w (.key "token") = some (.string "8080") := by
  refine C145_env exB1 exFormats _ _ false v h ?_ [("d", .memory (.map [("name", .string "a")]))] [] "env" "APP_" "APP_" rfl
    ((trimStr_iff _ _).1 (by decide)) (by decide) "token" "8080" rfl [] [] (os "APP_token", os "8080") rfl
    ⟨"APP_token", "APP_token", rfl, (trimStr_iff _ _).1 (by decide), by decide, 1, by decide, by decide⟩ rfl (by simp) _ (by simp [exOldKeeper, Keeper.keys, exOptOwn]) _ w hw
  intro e he
  have : e = ("d", .memory (.map [("name", .string "a")])) ∨ e = ("env", Layer.newEnvironment "APP_") := by
    simpa [offers, firsts, RegCall.offer, Layer.newEnvironment] using he
  rcases this with rfl | rfl
  · intro w v hv; cases hv; simp [UniqueKeys, UniqueKeysMap, UniqueKeysEntry]
  · intro w v hv
    exact uniqueKeys_readEnv (by simpa only [Layer.newEnvironment, Layer.readValue] using hv)

/-- And one finds what one has written. -/
example (c : CatchAll) (w : Value) (h : Session (exOldKeeper c) [("name", .str "b")] exNewFile w) :
    ∃ others', (exOldKeeper c).read w = .ok (.struct ([("name", .str "b")] ++ [("other", .map others')])) := by
  obtain ⟨_, _, others', -, h2, -⟩ := C145_again _ _ _ exNewFile_unique w h [("name", .str "b")]
    (.cons ⟨rfl, Or.inl ⟨.str "b", by simp [exOptOwn], .string "b", rfl, rfl⟩⟩ .nil)
  exact ⟨others', h2⟩

end Verif.Props
