import Verif.Spec.Footprint
import Verif.Props.Order
import Verif.Props.Serde
import Verif.Props.Evolution
import Verif.Props.Layers
import Verif.Props.Macro
/-!
# C119: settings depend only on the paths that their type looks at
-/
namespace Verif.Props
open Spec

/-- The values agree wherever the type looks. -/
def Agr (structs : Nat → List (String × Ty)) (t : Ty) (v v' : Value) : Prop := ∀ p, Looks structs t p → view v p = view v' p

theorem Agr.symm {structs : Nat → List (String × Ty)} {t : Ty} {v v' : Value} (h : Agr structs t v v') : Agr structs t v' v := fun p hp => (h p hp).symm

theorem agr_child {structs : Nat → List (String × Ty)} {t u : Ty} {v v' : Value} (h : Agr structs t v v') {s : Step}
    (hl : ∀ p, Looks structs u p → Looks structs t (s :: p)) {x : Value} (hc : child v s = some x) :
    ∃ x', child v' s = some x' ∧ Agr structs u x x' := by
  have h0 := h [s] (hl [] (.here _))
  simp only [view, hc, Option.bind_some] at h0
  cases hc' : child v' s with
  | none => rw [hc'] at h0; cases h0
  | some x' =>
    refine ⟨x', rfl, fun p hp => ?_⟩
    have := h (s :: p) (hl p hp)
    simpa only [view, hc, hc', Option.bind_some] using this

theorem agr_none {structs : Nat → List (String × Ty)} {t u : Ty} {v v' : Value} (h : Agr structs t v v') {s : Step}
    (hl : ∀ p, Looks structs u p → Looks structs t (s :: p)) : child v s = none ↔ child v' s = none := by
  constructor
  · intro hc
    cases hc' : child v' s with
    | none => rfl
    | some x => obtain ⟨y, hy, -⟩ := agr_child h.symm hl hc'; rw [hc] at hy; cases hy
  · intro hc
    cases hc' : child v s with
    | none => rfl
    | some x => obtain ⟨y, hy, -⟩ := agr_child h hl hc'; rw [hc] at hy; cases hy

theorem agr_scalar {structs : Nat → List (String × Ty)} {t : Ty} {v w : Value} (hs : isScalar v = true) (h : Agr structs t v w) : w = v := by
  have := h [] (.here _)
  cases v <;> first | (cases hs; done) | (cases w <;> simp [view, head] at this <;> first | rfl | rw [this])

theorem agr_array {structs : Nat → List (String × Ty)} {t : Ty} {xs : List Value} {v : Value} (h : Agr structs t (.array xs) v) :
    ∃ ys, v = .array ys ∧ xs.length = ys.length := by
  have := h [] (.here _)
  cases v <;> simp [view, head] at this
  exact ⟨_, rfl, this⟩

theorem agr_map {structs : Nat → List (String × Ty)} {t : Ty} {m : Entries} {v : Value} (h : Agr structs t (.map m) v) : ∃ n, v = .map n := by
  have := h [] (.here _)
  cases v <;> simp [view, head] at this
  exact ⟨_, rfl⟩

/-- Entry by entry. -/
theorem agr_get {structs : Nat → List (String × Ty)} {t u : Ty} {m n : Entries} (h : Agr structs t (.map m) (.map n)) {k : String}
    (hl : ∀ p, Looks structs u p → Looks structs t (.key k :: p)) :
    (hmGet m k = none ↔ hmGet n k = none) ∧ ∀ x y, hmGet m k = some x → hmGet n k = some y → Agr structs u x y := by
  have h1 := agr_none h hl
  rw [child_key_map, child_key_map] at h1
  refine ⟨h1, fun x y hx hy => ?_⟩
  obtain ⟨y', e1, e2⟩ := agr_child h hl (x := x) (by rw [child_key_map]; exact hx)
  rw [child_key_map, hy] at e1
  cases e1
  exact e2

/-- Reading depends only on where the type looks (one direction). -/
def Footed (refs : Nat → Decoder) (structs : Nat → List (String × Ty)) (t : Ty) : Prop :=
  ∀ v v' d, Agr structs t v v' → UniqueKeys v → UniqueKeys v' → ¬ KeyClash structs t v → de refs t v = .ok d →
    ∃ d', de refs t v' = .ok d' ∧ DSame d d'

theorem foot_tuple {refs : Nat → Decoder} {structs : Nat → List (String × Ty)} {ts : List Ty}
    (ih : ∀ t ∈ ts, Footed refs structs t) {xs ws : List Value} {ds : List Data}
    (l : xs.length = ws.length) (hs : ∀ (i : Nat) t x y, ts[i]? = some t → xs[i]? = some x → ws[i]? = some y → Agr structs t x y) (hu : UniqueKeys (.array xs)) (hu' : UniqueKeys (.array ws))
    (hc : ∀ (i : Nat) t x, ts[i]? = some t → xs[i]? = some x → ¬ KeyClash structs t x)
    (h1 : ts.length ≤ xs.length) (h2 : ds.length = ts.length)
    (h3 : ∀ (i : Nat) t x y, ts[i]? = some t → xs[i]? = some x → ds[i]? = some y → de refs t x = .ok y) :
    ∃ ds', ts.length ≤ ws.length ∧ ds'.length = ts.length ∧
      (∀ (i : Nat) t x y, ts[i]? = some t → ws[i]? = some x → ds'[i]? = some y → de refs t x = .ok y) ∧
      List.Forall₂ DSame ds ds' := by
  rw [uniqueKeys_array] at hu hu'
  have step : ∀ i, i < ts.length → ∃ y', ∀ t x y, ts[i]? = some t → ws[i]? = some x → ds[i]? = some y →
      de refs t x = .ok y' ∧ DSame y y' := by
    intro i hi
    obtain ⟨t, ht⟩ := get_of_lt hi
    obtain ⟨x, hx⟩ := get_of_lt (show i < xs.length by omega)
    obtain ⟨w, hw⟩ := get_of_lt (show i < ws.length by omega)
    obtain ⟨y, hy⟩ := get_of_lt (show i < ds.length by omega)
    obtain ⟨y', e1, e2⟩ := ih t (List.mem_of_getElem? ht) x w y (hs i t x w ht hx hw) (hu x (List.mem_of_getElem? hx))
      (hu' w (List.mem_of_getElem? hw)) (hc i t x ht hx) (h3 i t x y ht hx hy)
    refine ⟨y', fun t2 w2 y2 f1 f2 f3 => ?_⟩
    rw [ht] at f1; rw [hw] at f2; rw [hy] at f3
    cases f1; cases f2; cases f3
    exact ⟨e1, e2⟩
  obtain ⟨ds', hl', hd'⟩ := list_choose _ step
  refine ⟨ds', by omega, hl', fun i t x y' ht hx hy' => ?_, forall2_of_index (by omega) fun i y y' hy hy' => ?_⟩
  · obtain ⟨y, hy⟩ := get_of_lt (show i < ds.length by have := lt_of_get ht; omega)
    exact (hd' i y' hy' t x y ht hx hy).1
  · have hi := lt_of_get hy
    obtain ⟨t, ht⟩ := get_of_lt (show i < ts.length by omega)
    obtain ⟨w, hw⟩ := get_of_lt (show i < ws.length by omega)
    exact (hd' i y' hy' t w y ht hw hy).2

theorem foot_struct {refs : Nat → Decoder} {structs : Nat → List (String × Ty)} {fs : List (String × Ty)}
    (hn : (fs.map Prod.fst).Nodup) (ih : ∀ f ∈ fs, Footed refs structs f.2) : Footed refs structs (.struct fs) := by
  intro v v' d hs hu hu' hc hd
  cases v with
  | map m =>
    obtain ⟨n, rfl⟩ := agr_map hs
    have hu1 := uniqueKeys_map.1 hu
    have hu2 := uniqueKeys_map.1 hu'
    rw [de_struct_ok _ _ hn _ hu1.1] at hd
    obtain ⟨ds, rfl, hf⟩ := hd
    obtain ⟨l, h1⟩ := forall2_index hf
    have step : ∀ i, i < fs.length → ∃ nd' : String × Data, ∀ f nd, fs[i]? = some f → ds[i]? = some nd →
        nd'.1 = f.1 ∧ (match hmGet n f.1 with | some v => de refs f.2 v | none => missingField f.1 f.2) = .ok nd'.2 ∧
        nd.1 = nd'.1 ∧ DSame nd.2 nd'.2 := by
      intro i hi
      obtain ⟨f, hf⟩ := get_of_lt hi
      obtain ⟨nd, hnd⟩ := get_of_lt (show i < ds.length by omega)
      obtain ⟨e1, e2⟩ := h1 i f nd hf hnd
      have hs := agr_get hs (k := f.1) (u := f.2) fun p hp => .struct (name := f.1) (t := f.2) (List.mem_of_getElem? hf) hp
      have : ∃ d', (match hmGet n f.1 with | some v => de refs f.2 v | none => missingField f.1 f.2) = .ok d' ∧ DSame nd.2 d' := by
        cases hm : hmGet m f.1 with
        | none =>
          rw [hm] at e2
          rw [hs.1.1 hm]
          exact ⟨_, e2, DSame.refl _⟩
        | some x =>
          rw [hm] at e2
          have hne : hmGet n f.1 ≠ none := fun e => by rw [hs.1.2 e] at hm; cases hm
          obtain ⟨w, hw⟩ := Option.ne_none_iff_exists'.1 hne
          rw [hw]
          have hfm := List.mem_of_getElem? hf
          exact ih f hfm x w nd.2 (hs.2 x w hm hw) (uniqueKeys_get hu hm) (uniqueKeys_get hu' hw)
            (fun hcl => hc (.struct (name := f.1) (t := f.2) hfm (by rw [child_key_map]; exact hm) hcl)) e2
      obtain ⟨d', h2, h3⟩ := this
      refine ⟨(f.1, d'), fun f' nd' g1 g2 => ?_⟩
      rw [hf] at g1; rw [hnd] at g2; cases g1; cases g2
      exact ⟨rfl, h2, e1, h3⟩
    obtain ⟨ds', hl', hd'⟩ := list_choose _ step
    refine ⟨.struct ds', ?_, dsame_struct (forall2_of_index (by omega) fun i y y' hy hy' => ?_)⟩
    · rw [de_struct_ok _ _ hn _ hu2.1]
      refine ⟨ds', rfl, forall2_of_index (by omega) fun i f y hf hy => ?_⟩
      obtain ⟨nd, hnd⟩ := get_of_lt (show i < ds.length by have := lt_of_get hf; omega)
      obtain ⟨e1, e2, _⟩ := hd' i y hy f nd hf hnd
      exact ⟨e1, e2⟩
    · obtain ⟨f, hf⟩ := get_of_lt (show i < fs.length by have := lt_of_get hy; omega)
      obtain ⟨_, _, e3, e4⟩ := hd' i y' hy' f y hf hy
      exact ⟨e3, e4⟩
  | _ => simp [de, deStruct] at hd

theorem foot_scalar {refs : Nat → Decoder} {structs : Nat → List (String × Ty)} {t : Ty}
    (h : ∀ v d, de refs t v = .ok d → isScalar v = true) : Footed refs structs t := by
  intro v v' d hs _ _ _ hd
  rw [agr_scalar (h v d hd) hs]
  exact ⟨d, hd, DSame.refl d⟩

theorem foot_free {refs : Nat → Decoder} {structs : Nat → List (String × Ty)}
    (hr : ∀ n, Footed refs structs (.ref n)) {t : Ty} (ht : WellFormed t) : Footed refs structs t := by
  have sc : ∀ {t : Ty} {s : Scalar} {f : s.T → Data},
      (∀ v, de refs t v = (Outcome.ofExcept (v.tryInto s) >>= fun a => Outcome.ok (f a))) → Footed refs structs t := by
    intro t s f h
    refine foot_scalar fun v d hd => ?_
    rw [h, bind_eq_ok] at hd
    obtain ⟨a, h1, _⟩ := hd
    rw [ofExcept_ok] at h1
    exact tryInto_scalar h1
  induction ht with
  | bool => exact sc (s := .bool) (f := .bool) (fun v => by rw [de])
  | int t =>
    by_cases hu : Upto64 t
    · exact sc (s := .int t) (f := .int t) (fun v => by rw [de, deInt_eq hu])
    · refine foot_scalar fun v d hd => ?_
      have : t = .i128 ∨ t = .u128 := by
        by_contra h
        rw [not_or] at h
        exact hu h
      rw [de] at hd
      rcases this with rfl | rfl <;> cases hd
  | f32 => exact sc (s := .f64) (f := fun x => .f32 (F32.ofF64 x)) (fun v => by rw [de])
  | f64 => exact sc (s := .f64) (f := .f64) (fun v => by rw [de])
  | char => exact sc (s := .char) (f := .char) (fun v => by rw [de])
  | string => exact sc (s := .string) (f := .str) (fun v => by rw [de])
  | unit => exact foot_scalar fun v d hd => by cases v <;> first | rfl | (simp [de] at hd)
  | unitStruct => exact foot_scalar fun v d hd => by cases v <;> first | rfl | (simp [de] at hd)
  | bytes => intro v v' d _ _ _ _ hd; rw [de] at hd; cases hd
  | enum => intro v v' d _ _ _ _ hd; rw [de] at hd; cases hd
  | value =>
    intro v v' d hs hu hu' _ hd
    rw [de, deValue_ok v hu] at hd
    cases hd
    exact ⟨v'.toData, by rw [de, deValue_ok v' hu']; rfl, dsame_toData v v' fun p => hs p (.value p)⟩
  | @option t _ ih =>
    intro v v' d hs hu hu' hc hd
    by_cases hv : v = .none
    · subst hv
      rw [agr_scalar rfl hs]
      exact ⟨d, hd, DSame.refl d⟩
    · have hv' : v' ≠ .none := by
        rintro rfl
        exact hv (agr_scalar rfl hs.symm)
      rw [de, bind_eq_ok] at hd
      · obtain ⟨x, h1, h2⟩ := hd
        cases h2
        obtain ⟨d', h3, h4⟩ := ih v v' x (fun p hp => hs p (.option hp)) hu hu' (fun h => hc (.option h)) h1
        refine ⟨.some d', ?_, dsame_some h4⟩
        rw [de, h3]
        · rfl
        · exact fun e => absurd e hv'
      · exact fun e => absurd e hv
  | newtype _ ih =>
    intro v v' d hs hu hu' hc hd
    rw [de, bind_eq_ok] at hd
    obtain ⟨x, h1, h2⟩ := hd
    cases h2
    obtain ⟨d', h3, h4⟩ := ih v v' x (fun p hp => hs p (.newtype hp)) hu hu' (fun h => hc (.newtype h)) h1
    exact ⟨.newtypeStruct d', by rw [de, h3]; rfl, dsame_newtype h4⟩
  | @seq t _ ih =>
    intro v v' d hs hu hu' hc hd
    cases v with
    | array xs =>
      obtain ⟨ws, rfl, l⟩ := agr_array hs
      obtain ⟨ds, rfl, h1, h2⟩ := (de_seq_ok _ _ _ _).1 hd
      obtain ⟨ds', e1, e2, e3, e4⟩ := foot_tuple (ts := List.replicate xs.length t) (ds := ds)
        (fun t' ht => by rw [List.mem_replicate] at ht; rw [ht.2]; exact ih) l
        (fun i t' x y ht hx hy => by
          rw [List.getElem?_replicate] at ht
          split at ht <;> cases ht
          obtain ⟨y', e1, e2⟩ := agr_child hs (u := t) (s := .idx i) (fun p hp => .seq i hp) (x := x) hx
          rw [show child (.array ws) (.idx i) = some y from hy] at e1
          cases e1; exact e2) hu hu'
        (fun i t' x ht hx hcl => by
          rw [List.getElem?_replicate] at ht
          split at ht <;> cases ht
          exact hc (.seq (i := i) hx hcl))
        (by simp) (by simp [h1]) (fun i t' x y ht hx hy => by
          rw [List.getElem?_replicate] at ht
          split at ht <;> cases ht
          exact h2 i x y hx hy)
      simp only [List.length_replicate] at e1 e2
      refine ⟨.seq ds', (de_seq_ok _ _ _ _).2 ⟨ds', rfl, by omega, fun i x y hx hy => e3 i t x y ?_ hx hy⟩, dsame_seq e4⟩
      rw [List.getElem?_replicate, if_pos (by have := lt_of_get hx; omega)]
    | _ => simp [de] at hd
  | tuple _ ih =>
    intro v v' d hs hu hu' hc hd
    cases v with
    | array xs =>
      obtain ⟨ws, rfl, l⟩ := agr_array hs
      obtain ⟨ds, rfl, h0, h1, h2⟩ := (de_tuple_ok _ _ _ _).1 hd
      obtain ⟨ds', e1, e2, e3, e4⟩ := foot_tuple ih l
        (fun i t x y ht hx hy => by
          obtain ⟨y', e1, e2⟩ := agr_child hs (u := t) (s := .idx i) (fun p hp => .tuple ht hp) (x := x) hx
          rw [show child (.array ws) (.idx i) = some y from hy] at e1
          cases e1; exact e2) hu hu'
        (fun i t' x ht hx hcl => hc (.tuple (i := i) ht hx hcl)) h0 h1 h2
      exact ⟨.tuple ds', (de_tuple_ok _ _ _ _).2 ⟨ds', rfl, e1, e2, e3⟩, dsame_tuple e4⟩
    | _ => simp [de] at hd
  | tupleStruct _ ih =>
    intro v v' d hs hu hu' hc hd
    cases v with
    | array xs =>
      obtain ⟨ws, rfl, l⟩ := agr_array hs
      obtain ⟨ds, rfl, h0, h1, h2⟩ := (de_tupleStruct_ok _ _ _ _).1 hd
      obtain ⟨ds', e1, e2, e3, e4⟩ := foot_tuple ih l
        (fun i t x y ht hx hy => by
          obtain ⟨y', e1, e2⟩ := agr_child hs (u := t) (s := .idx i) (fun p hp => .tupleStruct ht hp) (x := x) hx
          rw [show child (.array ws) (.idx i) = some y from hy] at e1
          cases e1; exact e2) hu hu'
        (fun i t' x ht hx hcl => hc (.tupleStruct (i := i) ht hx hcl)) h0 h1 h2
      exact ⟨.tupleStruct ds', (de_tupleStruct_ok _ _ _ _).2 ⟨ds', rfl, e1, e2, e3⟩, dsame_tupleStruct e4⟩
    | _ => simp [de] at hd
  | @map kt t _ ih =>
    intro v v' d hs hu hu' hc hd
    cases v with
    | map m =>
      obtain ⟨n, rfl⟩ := agr_map hs
      replace hs := fun k => agr_get hs (k := k) (u := t) fun p hp => .map k hp
      have hu1 := uniqueKeys_map.1 hu
      have hu2 := uniqueKeys_map.1 hu'
      rw [de, bind_eq_ok] at hd
      obtain ⟨es, h0, h2⟩ := hd
      cases h2
      obtain ⟨kds, h1, rfl⟩ := (deMapLoop_ok kt _ m [] es).1 h0
      clear h0
      have nodup : ∀ {m : Entries} {kds : List (Key × Data)}, (m.map Prod.fst).Nodup →
          (∀ a b, a ∈ m.map Prod.fst → b ∈ m.map Prod.fst → a ≠ b → ¬ SameKey kt a b) →
          List.Forall₂ (fun e kd => deKey kt e.1 = Outcome.ok kd.1) m kds → (kds.map Prod.fst).Nodup := by
        intro m kds hn hk h
        have e1 : (kds.map Prod.fst).map Outcome.ok = (m.map Prod.fst).map (deKey kt) := by
          clear hn hk
          induction h with
          | nil => rfl
          | cons h1 _ ih => simp only [List.map_cons, h1, ih]
        refine List.Nodup.of_map (Outcome.ok (ε := ModelError)) ?_
        rw [e1]
        refine List.Nodup.map_on ?_ hn
        intro a ha b hb hab
        by_contra hne
        obtain ⟨ea, ha', rfl⟩ := List.mem_map.1 ha
        obtain ⟨kd, _, h3⟩ := forall2_left h ea ha'
        exact hk _ _ ha hb hne (deKey_sameKey h3 (by rw [← hab]; exact h3))
      have hmem : ∀ {a}, a ∈ m.map Prod.fst → child (.map m) (.key a) ≠ none := by
        intro a ha
        rw [child_key_map, ne_eq, hmGet_eq_none, not_not]; exact ha
      have hk1 : ∀ a b, a ∈ m.map Prod.fst → b ∈ m.map Prod.fst → a ≠ b → ¬ SameKey kt a b :=
        fun a b ha hb hne h => hc (.here hne h (hmem ha) (hmem hb))
      have hkeys : ∀ a, a ∈ n.map Prod.fst → a ∈ m.map Prod.fst := by
        intro a ha
        by_contra h
        rw [← hmGet_eq_none, (hs a).1, hmGet_eq_none] at h
        exact h ha
      have hkeys' : ∀ a, a ∈ m.map Prod.fst → a ∈ n.map Prod.fst := by
        intro a ha
        by_contra h
        rw [← hmGet_eq_none, ← (hs a).1, hmGet_eq_none] at h
        exact h ha
      have hnk := nodup hu1.1 hk1 (h1.imp (fun _ _ h => h.1))
      have step : ∀ e ∈ n, ∃ kd' : Key × Data, (deKey kt e.1 = .ok kd'.1 ∧ de refs t e.2 = .ok kd'.2) ∧
          ∃ x, (kd'.1, x) ∈ kds ∧ DSame x kd'.2 := by
        intro e he
        have hw := hmGet_of_mem hu2.1 (show (e.1, e.2) ∈ n from he)
        have hne : hmGet m e.1 ≠ none := fun h => by rw [(hs e.1).1.1 h] at hw; cases hw
        obtain ⟨x, hx⟩ := Option.ne_none_iff_exists'.1 hne
        obtain ⟨kd, hkd, g1, g2⟩ := forall2_left h1 _ (hmGet_mem hx)
        obtain ⟨d', g3, g4⟩ := ih x e.2 kd.2 ((hs e.1).2 x e.2 hx hw) (uniqueKeys_get hu hx) (hu2.2 e he)
          (fun hcl => hc (.entry (k := e.1) (by rw [child_key_map]; exact hx) hcl)) g2
        exact ⟨(kd.1, d'), ⟨g1, g3⟩, kd.2, hkd, g4⟩
      obtain ⟨kds', h3⟩ := forall2_exists step
      have hnk' := nodup hu2.1 (fun a b ha hb => hk1 a b (hkeys a ha) (hkeys b hb)) (h3.imp (fun _ _ h => h.1.1))
      refine ⟨_, ?_, dsame_map (as := keyInsAll [] kds) (bs := keyInsAll [] kds') ?_⟩
      · rw [de, bind_eq_ok]
        exact ⟨_, (deMapLoop_ok kt _ n [] _).2 ⟨kds', h3.imp (fun _ _ h => h.1), rfl⟩, rfl⟩
      · intro key
        by_cases hkey : key ∈ kds'.map Prod.fst
        · obtain ⟨kd', hkd', rfl⟩ := List.mem_map.1 hkey
          rw [keyGet_insAll_mem kds' [] kd'.1 kd'.2 hnk' hkd']
          obtain ⟨e, he, _, x, hx, hxs⟩ := forall2_right h3 _ hkd'
          rw [keyGet_insAll_mem kds [] kd'.1 x hnk hx]
          refine ⟨by simp, ?_⟩
          intro a b ha hb
          cases ha; cases hb; exact hxs
        · rw [keyGet_insAll_absent kds' [] key hkey]
          have : key ∉ kds.map Prod.fst := by
            intro hk
            obtain ⟨kd, hkd, rfl⟩ := List.mem_map.1 hk
            obtain ⟨e, he, g1, _⟩ := forall2_right h1 _ hkd
            obtain ⟨w, hw⟩ := List.mem_map.1 (hkeys' e.1 (List.mem_map.2 ⟨e, he, rfl⟩))
            obtain ⟨kd', hkd', g2, _⟩ := forall2_left h3 w hw.1
            rw [hw.2, g1] at g2
            exact hkey (List.mem_map.2 ⟨kd', hkd', (Outcome.ok.inj g2.1).symm⟩)
          rw [keyGet_insAll_absent kds [] key this]
          refine ⟨by simp, ?_⟩
          intro x y hx; simp [keyGet] at hx
    | _ => simp [de] at hd
  | struct hn _ ih => exact foot_struct hn ih
  | ref n => exact hr n

theorem foot_refs {structs : Nat → List (String × Ty)} (hs : ∀ n, WellFormed (.struct (structs n))) :
    ∀ k n, Footed (refsAt structs k) structs (.ref n) := by
  intro k
  induction k with
  | zero => intro n v v' d _ _ _ _ hd; rw [de, refsAt] at hd; cases hd
  | succ k ih =>
    intro n v v' d hs' hu hu' hc hd
    rw [de, refsAt] at hd
    obtain ⟨d', h1, h2⟩ := foot_free ih (hs n) v v' d (fun p hp => hs' p (.ref hp)) hu hu' (fun h => hc (.ref h)) hd
    exact ⟨d', by rw [de, refsAt]; exact h1, h2⟩

theorem clash_agr {structs : Nat → List (String × Ty)} {t : Ty} {v : Value} (h : KeyClash structs t v) :
    ∀ v', Agr structs t v v' → KeyClash structs t v' := by
  induction h with
  | @here kt t v a b h1 h2 h3 h4 =>
    intro v' hs
    exact .here h1 h2 (fun e => h3 ((agr_none hs (u := t) fun p hp => .map a hp).2 e)) fun e => h4 ((agr_none hs (u := t) fun p hp => .map b hp).2 e)
  | @entry kt t v k x h1 _ ih =>
    intro v' hs; obtain ⟨x', hx', h⟩ := agr_child hs (u := t) (fun p hp => .map k hp) h1; exact .entry hx' (ih x' h)
  | option _ ih => intro v' hs; exact .option (ih v' fun p hp => hs p (.option hp))
  | newtype _ ih => intro v' hs; exact .newtype (ih v' fun p hp => hs p (.newtype hp))
  | @seq t v i x h1 _ ih => intro v' hs; obtain ⟨x', hx', h⟩ := agr_child hs (u := t) (fun p hp => .seq i hp) h1; exact .seq hx' (ih x' h)
  | @tuple ts v i t x h0 h1 _ ih =>
    intro v' hs; obtain ⟨x', hx', h⟩ := agr_child hs (u := t) (fun p hp => .tuple h0 hp) h1; exact .tuple h0 hx' (ih x' h)
  | @tupleStruct ts v i t x h0 h1 _ ih =>
    intro v' hs; obtain ⟨x', hx', h⟩ := agr_child hs (u := t) (fun p hp => .tupleStruct h0 hp) h1; exact .tupleStruct h0 hx' (ih x' h)
  | @struct fs v name t x h0 h1 _ ih =>
    intro v' hs; obtain ⟨x', hx', h⟩ := agr_child hs (u := t) (fun p hp => .struct h0 hp) h1; exact .struct h0 hx' (ih x' h)
  | ref _ ih => intro v' hs; exact .ref (ih v' fun p hp => hs p (.ref hp))

/-! ## C119 -/

/-- **C119.** Two values that agree wherever the type looks are read as the type alike: either can be read if the other can, and as the same. -/
theorem C119_footprint (structs : Nat → List (String × Ty)) (hs : ∀ n, WellFormed (.struct (structs n)))
    (T : Ty) (hT : WellFormed T) (k : Nat) (v w : Value) (hv : UniqueKeys v) (hw : UniqueKeys w)
    (h : ∀ p, Looks structs T p → view v p = view w p) (hc : ¬ KeyClash structs T v) :
    ((∃ d, deAt structs k T v = .ok d) ↔ ∃ d, deAt structs k T w = .ok d) ∧
    ∀ d d', deAt structs k T v = .ok d → deAt structs k T w = .ok d' → DSame d d' := by
  have h1 := foot_free (foot_refs hs k) hT v w
  have h2 := foot_free (foot_refs hs k) hT w v
  have hc' : ¬ KeyClash structs T w := fun h' => hc (clash_agr h' v fun p hp => (h p hp).symm)
  refine ⟨⟨?_, ?_⟩, ?_⟩
  · rintro ⟨d, hd⟩
    obtain ⟨d', h3, _⟩ := h1 d h hv hw hc hd
    exact ⟨d', h3⟩
  · rintro ⟨d, hd⟩
    obtain ⟨d', h3, _⟩ := h2 d (fun p hp => (h p hp).symm) hw hv hc' hd
    exact ⟨d', h3⟩
  · intro d d' hd hd'
    obtain ⟨d'', h3, h4⟩ := h1 d h hv hw hc hd
    rw [deAt] at hd'
    rw [h3] at hd'
    cases hd'
    exact h4

/-- **C119.** A change below one field leaves the other fields of the settings as they are. -/
theorem C119_other_fields (structs : Nat → List (String × Ty)) (hs : ∀ n, WellFormed (.struct (structs n)))
    (fs : List (String × Ty)) (hT : WellFormed (.struct fs)) (k : Nat) (v w : Value) (hv : UniqueKeys v) (hw : UniqueKeys w)
    (name : String) (h : ∀ p, Looks structs (.struct fs) p → (∀ q, p ≠ .key name :: q) → view v p = view w p) (hc : ¬ KeyClash structs (.struct fs) v)
    (ds ds' : List (String × Data)) (hd : deAt structs k (.struct fs) v = .ok (.struct ds)) (hd' : deAt structs k (.struct fs) w = .ok (.struct ds')) :
    ds.map Prod.fst = ds'.map Prod.fst ∧
      ∀ (i : Nat) n d d', ds[i]? = some (n, d) → ds'[i]? = some (n, d') → n ≠ name → DSame d d' := by
  cases hT with
  | struct hn hT =>
  obtain ⟨m, rfl⟩ := struct_map hd
  obtain ⟨m', rfl⟩ := struct_map hd'
  have hum := uniqueKeys_map.1 hv
  have hum' := uniqueKeys_map.1 hw
  obtain ⟨_, e, h1⟩ := (de_struct_ok _ _ hn _ hum.1 _).1 hd
  cases e
  obtain ⟨_, e, h2⟩ := (de_struct_ok _ _ hn _ hum'.1 _).1 hd'
  cases e
  refine ⟨by rw [(fields_of h1).1, (fields_of h2).1], fun i n d d' e1 e2 hne => ?_⟩
  obtain ⟨l1, g1⟩ := forall2_index h1
  obtain ⟨l2, g2⟩ := forall2_index h2
  obtain ⟨⟨n', t⟩, hf⟩ := get_of_lt (show i < fs.length by have := lt_of_get e1; omega)
  obtain ⟨a1, a2⟩ := g1 i _ _ hf e1
  obtain ⟨b1, b2⟩ := g2 i _ _ hf e2
  simp only at a1 a2 b1 b2
  subst a1
  have hmem := List.mem_of_getElem? hf
  have hag : ∀ p, Looks structs t p → view (.map m) (.key n :: p) = view (.map m') (.key n :: p) :=
    fun p hp => h _ (.struct hmem hp) fun q e => hne (by injection e with e; injection e)
  have h0 := hag [] (.here _)
  simp only [view, child_key_map] at h0
  cases hm : hmGet m n with
  | none =>
    rw [hm] at a2 h0
    cases hm' : hmGet m' n with
    | none => rw [hm'] at b2; rw [a2] at b2; cases b2; exact DSame.refl _
    | some y => rw [hm'] at h0; cases h0
  | some x =>
    rw [hm] at a2 h0
    cases hm' : hmGet m' n with
    | none => rw [hm'] at h0; cases h0
    | some y =>
      rw [hm'] at b2
      refine (C119_footprint structs hs t (hT _ hmem) k x y (hum.2 _ (hmGet_mem hm)) (hum'.2 _ (hmGet_mem hm')) (fun p hp => ?_) (fun hcl => hc ?_)).2 d d' a2 b2
      · have := hag p hp
        simpa only [view, child_key_map, hm, hm', Option.bind_some] using this
      · exact .struct hmem (by rw [child_key_map]; exact hm) hcl

/-- **C119.** A layer that says nothing about any path the settings look at — or only where a later layer speaks — can be left out, wherever it stands: the
settings can be read with it exactly if they can be read without it, and they are the same. -/
theorem C119_layer (b : Build) (fm : Formats) (calls calls' : List RegCall) (w : World) (skip : Bool) (v v' : Value)
    (before after : List (String × Layer)) (e : String × Layer)
    (hls : firsts (offers b fm calls) = before ++ e :: after) (hls' : firsts (offers b fm calls') = before ++ after)
    (hp : ∀ a ∈ firsts (offers b fm calls), Proper a.2)
    (h : (register b fm calls).buildValue w skip = .ok v) (h' : (register b fm calls').buildValue w skip = .ok v')
    (structs : Nat → List (String × Ty)) (hs : ∀ n, WellFormed (.struct (structs n))) (T : Ty) (hT : WellFormed T) (k : Nat)
    (hno : ∀ p, Looks structs T p → p ≠ [] → ¬ Speaks w e.2 p ∨ ∃ a ∈ after, Speaks w a.2 p) (hc : ¬ KeyClash structs T v) :
    ((∃ d, deAt structs k T v = .ok d) ↔ ∃ d, deAt structs k T v' = .ok d) ∧
    ∀ d d', deAt structs k T v = .ok d → deAt structs k T v' = .ok d' → DSame d d' := by
  have hp' : ∀ a ∈ firsts (offers b fm calls'), Proper a.2 := by
    intro a ha
    refine hp a ?_
    rw [hls'] at ha
    rw [hls]
    rcases List.mem_append.1 ha with ha | ha
    · exact List.mem_append_left _ ha
    · exact List.mem_append_right _ (List.mem_cons_of_mem _ ha)
  obtain ⟨m1, u1⟩ := C08_map b fm calls w skip v h
  obtain ⟨m2, u2⟩ := C08_map b fm calls' w skip v' h'
  refine C119_footprint structs hs T hT k v v' (u1 hp) (u2 hp') (fun p hl => ?_) hc
  by_cases e0 : p = []
  · subst e0
    cases v <;> cases m1
    cases v' <;> cases m2
    rfl
  · exact C113_path b fm calls calls' w skip v v' before after e hls hls' hp h h' p (hno p hl e0)

/-! ## Two configurations -/

theorem looks_prefix {structs : Nat → List (String × Ty)} {t : Ty} {p : Path} (h : Looks structs t p) : ∀ q, q <+: p → Looks structs t q := by
  induction h with
  | here t => intro q hq; rw [List.prefix_nil] at hq; rw [hq]; exact .here t
  | value p => intro q _; exact .value q
  | option _ ih => intro q hq; exact .option (ih q hq)
  | newtype _ ih => intro q hq; exact .newtype (ih q hq)
  | seq i _ ih =>
    intro q hq
    rcases List.prefix_cons_iff.1 hq with rfl | ⟨r, rfl, hr⟩
    · exact .here _
    · exact .seq i (ih r hr)
  | tuple h _ ih =>
    intro q hq
    rcases List.prefix_cons_iff.1 hq with rfl | ⟨r, rfl, hr⟩
    · exact .here _
    · exact .tuple h (ih r hr)
  | tupleStruct h _ ih =>
    intro q hq
    rcases List.prefix_cons_iff.1 hq with rfl | ⟨r, rfl, hr⟩
    · exact .here _
    · exact .tupleStruct h (ih r hr)
  | map k _ ih =>
    intro q hq
    rcases List.prefix_cons_iff.1 hq with rfl | ⟨r, rfl, hr⟩
    · exact .here _
    · exact .map k (ih r hr)
  | struct h _ ih =>
    intro q hq
    rcases List.prefix_cons_iff.1 hq with rfl | ⟨r, rfl, hr⟩
    · exact .here _
    · exact .struct h (ih r hr)
  | ref _ ih => intro q hq; exact .ref (ih q hq)

theorem agr_isMap {structs : Nat → List (String × Ty)} {t : Ty} {v v' : Value} (h : Agr structs t v v') : v.isMap = v'.isMap := by
  have := h [] (.here _)
  cases v <;> cases v' <;> simp [view, head] at this <;> rfl

theorem agr_silent {structs : Nat → List (String × Ty)} {t : Ty} {v v' : Value} (h : Agr structs t v v') {p : Path} (hp : Looks structs t p) :
    Silent v p → Silent v' p := by
  rintro ⟨q, k, r, rfl, h1, h2⟩
  refine ⟨q, k, r, rfl, fun q' hq' => ?_, ?_⟩
  · rw [← h q' (looks_prefix hp q' (hq'.trans (List.prefix_append _ _)))]; exact h1 q' hq'
  · rw [← h _ (looks_prefix hp _ ⟨r, by simp⟩)]; exact h2

theorem agr_merge {structs : Nat → List (String × Ty)} {t : Ty} {a a' b b' : Value} (ha : Agr structs t a a') (hb : Agr structs t b b')
    (hu : UniqueKeys b) (hu' : UniqueKeys b') : Agr structs t (a.merge b) (a'.merge b') := by
  have no : ∀ {a b : Value}, (a.isMap && b.isMap) = false → a.merge b = a := by
    intro a b hm
    cases a <;> cases b <;> first | (cases hm; done) | simp [Value.merge]
  cases hm : a.isMap && b.isMap with
  | false => rw [no hm, no (by rw [← agr_isMap ha, ← agr_isMap hb]; exact hm)]; exact ha
  | true =>
    rw [Bool.and_eq_true] at hm
    intro p hp
    obtain ⟨h1, h2⟩ := view_merge' hm.1 hm.2 hu p
    obtain ⟨h3, h4⟩ := view_merge' (a := a') (b := b') (by rw [← agr_isMap ha]; exact hm.1) (by rw [← agr_isMap hb]; exact hm.2) hu' p
    by_cases hs : Silent b p
    · rw [h1 hs, h3 (agr_silent hb hp hs)]; exact ha p hp
    · rw [h2 hs, h4 fun e => hs (agr_silent hb.symm hp e)]; exact hb p hp

/-- **C119.** Two configurations (perhaps on different machines, or at different times) whose layers agree, one by one, wherever the settings look —
what cannot be read in one cannot be read in the other — give the same settings. -/
theorem C119_configurations (b b' : Build) (fm fm' : Formats) (calls calls' : List RegCall) (w w' : World) (skip skip' : Bool) (v v' : Value)
    (h : (register b fm calls).buildValue w skip = .ok v) (h' : (register b' fm' calls').buildValue w' skip' = .ok v')
    (hp : ∀ a ∈ firsts (offers b fm calls), Proper a.2) (hp' : ∀ a ∈ firsts (offers b' fm' calls'), Proper a.2)
    (structs : Nat → List (String × Ty)) (hs : ∀ n, WellFormed (.struct (structs n))) (T : Ty) (hT : WellFormed T) (k : Nat)
    (hag : List.Forall₂ (fun (e e' : String × Layer) =>
        (∃ x x', e.2.readValue w = .ok x ∧ e'.2.readValue w' = .ok x' ∧ ∀ p, Looks structs T p → view x p = view x' p) ∨
        (∃ er er', e.2.readValue w = .error er ∧ e'.2.readValue w' = .error er'))
      (firsts (offers b fm calls)) (firsts (offers b' fm' calls'))) (hc : ¬ KeyClash structs T v) :
    ((∃ d, deAt structs k T v = .ok d) ↔ ∃ d, deAt structs k T v' = .ok d) ∧
    ∀ d d', deAt structs k T v = .ok d → deAt structs k T v' = .ok d' → DSame d d' := by
  refine C119_footprint structs hs T hT k v v' ((C08_map b fm calls w skip v h).2 hp) ((C08_map b' fm' calls' w' skip' v' h').2 hp') ?_ hc
  rw [build_ok h, build_ok h']
  have key : ∀ (ls ls' : List (String × Layer)), List.Forall₂ (fun (e e' : String × Layer) =>
        (∃ x x', e.2.readValue w = .ok x ∧ e'.2.readValue w' = .ok x' ∧ ∀ p, Looks structs T p → view x p = view x' p) ∨
        (∃ er er', e.2.readValue w = .error er ∧ e'.2.readValue w' = .error er')) ls ls' →
      (∀ a ∈ ls, Proper a.2) → (∀ a ∈ ls', Proper a.2) → ∀ u u', Agr structs T u u' →
      Agr structs T ((readables w ls).foldl Value.merge u) ((readables w' ls').foldl Value.merge u') := by
    intro ls ls' hag
    induction hag with
    | nil => intro _ _ u u' hu; exact hu
    | @cons e e' r r' h1 _ ih =>
      intro hp hp' u u' hu
      replace ih := ih (fun a ha => hp a (List.mem_cons_of_mem _ ha)) (fun a ha => hp' a (List.mem_cons_of_mem _ ha))
      rcases h1 with ⟨x, x', e1, e2, e3⟩ | ⟨er, er', e1, e2⟩
      · simp only [readables, List.filterMap_cons, e1, e2, Except.toOption, List.foldl_cons]
        exact ih _ _ (agr_merge hu e3 (hp e List.mem_cons_self w x e1) (hp' e' List.mem_cons_self w' x' e2))
      · simp only [readables, List.filterMap_cons, e1, e2, Except.toOption]
        exact ih _ _ hu
  exact key _ _ hag hp hp' _ _ fun _ _ => rfl

/-! ## The environment -/

theorem child_of_head {v : Value} {k : String} {h : Head} (hv : view v [.key k] = some h) : ∃ x, child v (.key k) = some x ∧ head x = h := by
  cases hc : child v (.key k) with
  | none => simp only [view, hc, Option.bind_none, reduceCtorEq] at hv
  | some x => simp only [view, hc, Option.bind_some, Option.some.injEq] at hv; exact ⟨x, rfl, hv⟩

theorem head_string {x : Value} {s : String} (h : head x = .string s) : x = .string s := by
  cases x <;> simp [head] at h
  rw [h]

/-- Dropping variables that do not land on the key does not change what an environment layer has there. -/
theorem env_key {w w' : World} {pre P : String} (hP : Trimmed pre P) (hne : P ≠ "") {keep : OsStr × OsStr → Bool} (hw : w'.env = w.env.filter keep)
    {k : String} (hk : ∀ a ∈ w.env, keep a = false → ¬ Lands P a k) {x x' : Value} (hx : (Layer.newEnvironment pre).readValue w = .ok x)
    (hx' : (Layer.newEnvironment pre).readValue w' = .ok x') (p : Path) : view x (.key k :: p) = view x' (.key k :: p) := by
  obtain ⟨_, e, -, -, h1, h2⟩ := C54_reads w pre P hP hne
  rw [hx] at e; cases e
  obtain ⟨_, e, -, -, h3, h4⟩ := C54_reads w' pre P hP hne
  rw [hx'] at e; cases e
  rcases C54_cases w P k with h | ⟨before, var, after, s, henv, hl, ht, hlast⟩
  · have a := h2 k h
    have a' := h4 k (fun a ha => h a (by rw [hw] at ha; exact (List.mem_filter.1 ha).1))
    have c : child x (.key k) = none := by cases hc : child x (.key k) <;> simp [view, hc] at a ⊢
    have c' : child x' (.key k) = none := by cases hc : child x' (.key k) <;> simp [view, hc] at a' ⊢
    simp only [view, c, c']
  · have hkeep : keep var = true := by
      cases hv : keep var with
      | true => rfl
      | false => exact absurd hl (hk var (by rw [henv]; simp) hv)
    have a := (h1 k before var after s henv hl ht hlast).2
    have a' := (h3 k (before.filter keep) var (after.filter keep) s
      (by rw [hw, henv, List.filter_append, List.filter_cons, if_pos hkeep]) hl ht fun y hy => hlast y (List.mem_filter.1 hy).1).2
    obtain ⟨y, c, hy⟩ := child_of_head a
    obtain ⟨y', c', hy'⟩ := child_of_head a'
    rw [view, view, c, c', head_string hy, head_string hy']

/-- **C119.** Environment variables that do not land on a field of the settings might as well not be set. -/
theorem C119_environment (b : Build) (fm : Formats) (calls : List RegCall) (hb : ∀ c ∈ calls, c.BuiltIn)
    (hm : ∀ c ∈ calls, ∀ n x, c = .memory n x → UniqueKeys x) (w : World) (env : List (OsStr × OsStr)) (keep : OsStr × OsStr → Bool)
    (henv : env = w.env.filter keep) (fs : List (String × Ty))
    (hkeep : ∀ n pre P, .environment n pre ∈ calls → Trimmed pre P → ∀ a ∈ w.env, keep a = false → ∀ f ∈ fs, ¬ Lands P a f.1)
    (skip : Bool) (v v' : Value) (h : (register b fm calls).buildValue w skip = .ok v)
    (h' : (register b fm calls).buildValue { w with env := env } skip = .ok v')
    (structs : Nat → List (String × Ty)) (hs : ∀ n, WellFormed (.struct (structs n))) (hT : WellFormed (.struct fs)) (k : Nat)
    (hc : ¬ KeyClash structs (.struct fs) v) :
    ((∃ d, deAt structs k (.struct fs) v = .ok d) ↔ ∃ d, deAt structs k (.struct fs) v' = .ok d) ∧
    ∀ d d', deAt structs k (.struct fs) v = .ok d → deAt structs k (.struct fs) v' = .ok d' → DSame d d' := by
  have hp : ∀ a ∈ firsts (offers b fm calls), Proper a.2 := by
    intro e he
    obtain ⟨c, hc, ho⟩ := List.mem_filterMap.1 (mem_firsts he)
    exact C08_builtin_proper b fm c e (hb c hc) (hm c hc) ho
  refine C119_configurations b b fm fm calls calls w { w with env := env } skip skip v v' h h' hp hp structs hs _ hT k ?_ hc
  have same : ∀ {e : String × Layer}, e.2.readValue w = e.2.readValue { w with env := env } →
      (∃ x x', e.2.readValue w = .ok x ∧ e.2.readValue { w with env := env } = .ok x' ∧ ∀ p, Looks structs (.struct fs) p → view x p = view x' p) ∨
        (∃ er er', e.2.readValue w = .error er ∧ e.2.readValue { w with env := env } = .error er') := by
    intro e he
    rw [← he]
    cases hr : e.2.readValue w with
    | ok x => exact Or.inl ⟨x, x, rfl, rfl, fun _ _ => rfl⟩
    | error er => exact Or.inr ⟨er, er, rfl, rfl⟩
  refine List.forall₂_same.2 fun e he => ?_
  obtain ⟨c, hcm, ho⟩ := List.mem_filterMap.1 (mem_firsts he)
  cases c with
  | layer => exact (hb _ hcm).elim
  | memory n x => simp only [RegCall.offer, Option.some.injEq] at ho; subst ho; exact same rfl
  | file n path =>
    simp only [RegCall.offer] at ho
    split at ho
    · cases ho; exact same rfl
    · split at ho <;> cases ho
      exact same rfl
  | environment n pre =>
    simp only [RegCall.offer, Option.some.injEq] at ho; subst ho
    have hP : Trimmed pre (trimStr pre) := (trimStr_iff _ _).1 rfl
    by_cases hne : trimStr pre = ""
    · refine same ?_
      show Layer.readEnv w (trimStr pre) = Layer.readEnv { w with env := env } (trimStr pre)
      rw [hne]; rfl
    · obtain ⟨x, hx, hxm, -⟩ := C54_reads w pre _ hP hne
      obtain ⟨x', hx', hxm', -⟩ := C54_reads { w with env := env } pre _ hP hne
      refine Or.inl ⟨x, x', hx, hx', fun p hl => ?_⟩
      cases hl with
      | here =>
        cases x <;> cases hxm
        cases x' <;> cases hxm'
        rfl
      | @struct _ name t q hmem hl =>
        exact env_key (w' := { w with env := env }) hP hne henv (fun a ha ha' => hkeep n pre _ hcm hP a ha ha' _ hmem) hx hx' q

/-! ## Examples -/

/-- A host, and a server section with a port and an optional name. -/
def exFoot : List (String × Ty) := [("host", .string), ("server", .struct [("port", .int .u16), ("name", .option .string)])]

theorem exFoot_wf : WellFormed (.struct exFoot) ∧ StringKeyed (.struct exFoot) := by
  have h1 : WellFormed (.struct [("port", .int .u16), ("name", .option .string)]) := by
    refine .struct (by decide) fun f hf => ?_
    simp only [List.mem_cons, List.not_mem_nil, or_false] at hf
    rcases hf with rfl | rfl
    · exact .int _
    · exact .option .string
  have h2 : StringKeyed (.struct [("port", .int .u16), ("name", .option .string)]) := by
    refine .struct fun f hf => ?_
    simp only [List.mem_cons, List.not_mem_nil, or_false] at hf
    rcases hf with rfl | rfl
    · exact .leaf (by simp) (by simp) (by simp) (by simp) (by simp) (by simp) (by simp)
    · exact .option (.leaf (by simp) (by simp) (by simp) (by simp) (by simp) (by simp) (by simp))
  constructor
  · refine .struct (by decide) fun f hf => ?_
    simp only [exFoot, List.mem_cons, List.not_mem_nil, or_false] at hf
    rcases hf with rfl | rfl
    · exact .string
    · exact h1
  · refine .struct fun f hf => ?_
    simp only [exFoot, List.mem_cons, List.not_mem_nil, or_false] at hf
    rcases hf with rfl | rfl
    · exact .leaf (by simp) (by simp) (by simp) (by simp) (by simp) (by simp) (by simp)
    · exact h2

theorem exFoot_empty : ∀ n : Nat, WellFormed (.struct ((fun _ => [] : Nat → List (String × Ty)) n)) := fun _ => .struct (by simp) (by simp)

theorem exFoot_clash (v : Value) : ¬ KeyClash (fun _ => []) (.struct exFoot) v :=
  C44_string_keys_never_clash (fun _ => []) (fun _ => .struct (by simp)) _ exFoot_wf.2 v

/-- The paths at which these settings look. -/
theorem exFoot_looks {p : Path} (h : Looks (fun _ => []) (.struct exFoot) p) :
    p = [] ∨ p = [.key "host"] ∨ p = [.key "server"] ∨ p = [.key "server", .key "port"] ∨ p = [.key "server", .key "name"] := by
  cases h with
  | here => exact Or.inl rfl
  | struct hm h =>
    simp only [exFoot, List.mem_cons, Prod.mk.injEq, List.not_mem_nil, or_false] at hm
    rcases hm with ⟨rfl, rfl⟩ | ⟨rfl, rfl⟩
    · cases h; exact Or.inr (Or.inl rfl)
    · cases h with
      | here => exact Or.inr (Or.inr (Or.inl rfl))
      | struct hm h =>
        simp only [List.mem_cons, Prod.mk.injEq, List.not_mem_nil, or_false] at hm
        rcases hm with ⟨rfl, rfl⟩ | ⟨rfl, rfl⟩
        · cases h; exact Or.inr (Or.inr (Or.inr (Or.inl rfl)))
        · cases h with
          | here => exact Or.inr (Or.inr (Or.inr (Or.inr rfl)))
          | option h => cases h; exact Or.inr (Or.inr (Or.inr (Or.inr rfl)))

def exFootA : Value := .map [("host", .string "h"), ("server", .map [("port", .string "80")])]
/-- The same, in another order, and with more keys inside and outside the section. -/
def exFootB : Value :=
  .map [("color", .array []), ("server", .map [("debug", .none), ("port", .string "80")]), ("host", .string "h")]

example : ∃ d, deAt (fun _ => []) 0 (.struct exFoot) exFootA = .ok d ∧ ∃ d', deAt (fun _ => []) 0 (.struct exFoot) exFootB = .ok d' ∧ DSame d d' := by
  have h := C119_footprint (fun _ => []) exFoot_empty _ exFoot_wf.1 0 exFootA exFootB (by simp [exFootA, UniqueKeys, UniqueKeysMap, UniqueKeysEntry])
    (by simp [exFootB, UniqueKeys, UniqueKeysMap, UniqueKeysEntry, UniqueKeysList])
    (fun p hp => by rcases exFoot_looks hp with rfl | rfl | rfl | rfl | rfl <;> rfl) (exFoot_clash _)
  have hd : deAt (fun _ => []) 0 (.struct exFoot) exFootA =
      .ok (.struct [("host", .str "h"), ("server", .struct [("port", .int .u16 ⟨80, by decide⟩), ("name", .none)])]) := by rfl
  obtain ⟨d', hd'⟩ := h.1.1 ⟨_, hd⟩
  exact ⟨_, hd, d', hd', h.2 _ _ hd hd'⟩

/-- Another port: the host stays. -/
example : ∀ ds, deAt (fun _ => []) 0 (.struct exFoot) (.map [("server", .map [("port", .boolean true)]), ("host", .string "h")]) = .ok (.struct ds) →
    ∃ d, ds[0]? = some ("host", d) ∧ DSame (.str "h") d := by
  intro ds hds
  have hd : deAt (fun _ => []) 0 (.struct exFoot) exFootA =
      .ok (.struct [("host", .str "h"), ("server", .struct [("port", .int .u16 ⟨80, by decide⟩), ("name", .none)])]) := by rfl
  obtain ⟨h1, h2⟩ := C119_other_fields (fun _ => []) exFoot_empty _ exFoot_wf.1 0 exFootA
    (.map [("server", .map [("port", .boolean true)]), ("host", .string "h")]) (by simp [exFootA, UniqueKeys, UniqueKeysMap, UniqueKeysEntry])
    (by simp [UniqueKeys, UniqueKeysMap, UniqueKeysEntry]) "server"
    (fun p hp hno => by
      rcases exFoot_looks hp with rfl | rfl | rfl | rfl | rfl
      · rfl
      · rfl
      · exact absurd rfl (hno [])
      · exact absurd rfl (hno _)
      · exact absurd rfl (hno _)) (exFoot_clash _) _ ds hd hds
  match ds, h1, h2 with
  | (n, d) :: r, h1, h2 =>
    simp only [List.map_cons, List.cons.injEq] at h1
    obtain ⟨rfl, -⟩ := h1
    exact ⟨d, rfl, h2 0 "host" _ d rfl rfl (by decide)⟩

example : ∃ ds, deAt (fun _ => []) 0 (.struct exFoot) (.map [("server", .map [("port", .boolean true)]), ("host", .string "h")]) = .ok (.struct ds) :=
  ⟨[("host", .str "h"), ("server", .struct [("port", .int .u16 ⟨1, by decide⟩), ("name", .none)])], by rfl⟩

def exFootCalls : List RegCall := [.memory "default" exFootA, .memory "theme" (.map [("color", .string "red")]), .environment "env" "APP_"]
def exFootCalls' : List RegCall := [.memory "default" exFootA, .environment "env" "APP_"]

theorem exFoot_builtin : (∀ c ∈ exFootCalls, c.BuiltIn) ∧ ∀ c ∈ exFootCalls, ∀ n x, c = .memory n x → UniqueKeys x := by
  constructor
  · intro c hc
    simp only [exFootCalls, List.mem_cons, List.not_mem_nil, or_false] at hc
    rcases hc with rfl | rfl | rfl <;> trivial
  · intro c hc n x hx
    simp only [exFootCalls, List.mem_cons, List.not_mem_nil, or_false] at hc
    rcases hc with rfl | rfl | rfl <;> cases hx <;> simp [exFootA, UniqueKeys, UniqueKeysMap, UniqueKeysEntry]

theorem exFoot_proper : ∀ a ∈ firsts (offers exB1 exFormats exFootCalls), Proper a.2 := by
  intro e he
  obtain ⟨c, hc, ho⟩ := List.mem_filterMap.1 (mem_firsts he)
  exact C08_builtin_proper exB1 exFormats c e (exFoot_builtin.1 c hc) (exFoot_builtin.2 c hc) ho

/-- The layer `theme` has only a colour, at which the settings do not look: it can be left out. -/
example : ∃ v v' d d', (register exB1 exFormats exFootCalls).buildValue exDisk false = .ok v ∧
    (register exB1 exFormats exFootCalls').buildValue exDisk false = .ok v' ∧ view v [.key "color"] = some (.string "red") ∧ view v' [.key "color"] = none ∧
    deAt (fun _ => []) 0 (.struct exFoot) v = .ok d ∧ deAt (fun _ => []) 0 (.struct exFoot) v' = .ok d' ∧ DSame d d' := by
  have hb : (register exB1 exFormats exFootCalls).buildValue exDisk false = .ok (.map [("host", .string "h"), ("server", .map [("port", .string "80")]),
      ("color", .string "red"), ("k", .string "w")]) := by rfl
  have hb' : (register exB1 exFormats exFootCalls').buildValue exDisk false = .ok (.map [("host", .string "h"), ("server", .map [("port", .string "80")]),
      ("k", .string "w")]) := by rfl
  have h := C119_layer exB1 exFormats exFootCalls exFootCalls' exDisk false _ _ [("default", .memory exFootA)] [("env", .environment "APP_")]
    ("theme", .memory (.map [("color", .string "red")])) (by rfl) (by rfl) exFoot_proper hb hb' (fun _ => []) exFoot_empty (.struct exFoot) exFoot_wf.1 0
    (fun p hp hne => by
      refine Or.inl ?_
      rintro ⟨x, hx, -, hns⟩
      cases hx
      apply hns
      rcases exFoot_looks hp with rfl | rfl | rfl | rfl | rfl
      · exact absurd rfl hne
      · exact ⟨[], "host", [], rfl, by intro q' hq; rw [List.prefix_nil] at hq; subst hq; rfl, by rfl⟩
      · exact ⟨[], "server", [], rfl, by intro q' hq; rw [List.prefix_nil] at hq; subst hq; rfl, by rfl⟩
      · exact ⟨[], "server", [.key "port"], rfl, by intro q' hq; rw [List.prefix_nil] at hq; subst hq; rfl, by rfl⟩
      · exact ⟨[], "server", [.key "name"], rfl, by intro q' hq; rw [List.prefix_nil] at hq; subst hq; rfl, by rfl⟩)
    (exFoot_clash _)
  have hd : deAt (fun _ => []) 0 (.struct exFoot) (.map [("host", .string "h"), ("server", .map [("port", .string "80")]),
      ("color", .string "red"), ("k", .string "w")]) =
      .ok (.struct [("host", .str "h"), ("server", .struct [("port", .int .u16 ⟨80, by decide⟩), ("name", .none)])]) := by rfl
  obtain ⟨d', hd'⟩ := h.1.1 ⟨_, hd⟩
  exact ⟨_, _, _, d', hb, hb', by rfl, by rfl, hd, hd', h.2 _ _ hd hd'⟩

/-- Without the variables of `exDisk`, none of which lands on `host` or `server`, the settings are the same. -/
example : ∃ v v' d d', (register exB1 exFormats exFootCalls).buildValue exDisk false = .ok v ∧
    (register exB1 exFormats exFootCalls).buildValue { exDisk with env := [] } false = .ok v' ∧
    deAt (fun _ => []) 0 (.struct exFoot) v = .ok d ∧ deAt (fun _ => []) 0 (.struct exFoot) v' = .ok d' ∧ DSame d d' := by
  have hb : (register exB1 exFormats exFootCalls).buildValue exDisk false = .ok (.map [("host", .string "h"), ("server", .map [("port", .string "80")]),
      ("color", .string "red"), ("k", .string "w")]) := by rfl
  have hb' : (register exB1 exFormats exFootCalls).buildValue { exDisk with env := [] } false = .ok (.map [("host", .string "h"),
      ("server", .map [("port", .string "80")]), ("color", .string "red")]) := by rfl
  have h := C119_environment exB1 exFormats exFootCalls exFoot_builtin.1 exFoot_builtin.2 exDisk [] (fun _ => false) (by rfl) exFoot
    (by
      intro n pre P hc hP a ha _ f hf hl
      simp only [exFootCalls, List.mem_cons, RegCall.environment.injEq, reduceCtorEq, List.not_mem_nil, or_false, false_or] at hc
      obtain ⟨-, rfl⟩ := hc
      obtain rfl : P = "APP_" := by rw [← (trimStr_iff _ _).2 hP]; decide
      have hfl : f.1 = "host" ∨ f.1 = "server" := by
        simp only [exFoot, List.mem_cons, List.not_mem_nil, or_false] at hf
        rcases hf with rfl | rfl
        · exact Or.inl rfl
        · exact Or.inr rfl
      simp only [exDisk, List.mem_cons, List.not_mem_nil, or_false] at ha
      rcases ha with rfl | rfl | rfl
      · have := lands_unique (by decide) hl (k' := "k")
          ⟨"APP_k", "APP_k", rfl, (trimStr_iff _ _).1 (by decide), by decide, 1, by decide, by decide⟩
        rcases hfl with e | e <;> rw [e] at this <;> exact absurd this (by decide)
      · exact exPath_not_app _ (by simp [exFresh]) ⟨f.1, "/bin", hl, rfl⟩
      · have := lands_unique (by decide) hl exLands
        rcases hfl with e | e <;> rw [e] at this <;> exact absurd this (by decide)) false _ _ hb hb' (fun _ => []) exFoot_empty exFoot_wf.1 0 (exFoot_clash _)
  have hd : deAt (fun _ => []) 0 (.struct exFoot) (.map [("host", .string "h"), ("server", .map [("port", .string "80")]),
      ("color", .string "red"), ("k", .string "w")]) =
      .ok (.struct [("host", .str "h"), ("server", .struct [("port", .int .u16 ⟨80, by decide⟩), ("name", .none)])]) := by rfl
  obtain ⟨d', hd'⟩ := h.1.1 ⟨_, hd⟩
  exact ⟨_, _, _, d', hb, hb', hd, hd', h.2 _ _ hd hd'⟩

end Verif.Props
