import Verif.Spec.Blind
import Verif.Props.Kept
import Verif.Props.Program
/-!
# Reading does not depend on the order of maps (C99)
-/
namespace Verif.Props
open Spec

theorem dsame_newtypeVariant {n : String} {a b : Data} (h : DSame a b) : DSame (.newtypeVariant n a) (.newtypeVariant n b) := by
  intro p
  cases p with
  | nil => rfl
  | cons s p => cases s <;> simp [dview, dchild, h p]

theorem dsame_tupleVariant {n : String} {as bs : List Data} (h : List.Forall₂ DSame as bs) : DSame (.tupleVariant n as) (.tupleVariant n bs) := by
  intro p
  cases p with
  | nil => simp [dview, dhead, h.length_eq]
  | cons s p => cases s <;> simp only [dview, dchild, Option.bind_none]; exact list_dview h _ _

theorem dsame_structVariant {n : String} {as bs : List (String × Data)} (h : List.Forall₂ (fun a b => a.1 = b.1 ∧ DSame a.2 b.2) as bs) :
    DSame (.structVariant n as) (.structVariant n bs) := by
  intro p
  cases p with
  | nil =>
    simp only [dview, dhead, Option.some.injEq, DHead.structVariant.injEq, true_and]
    induction h with
    | nil => rfl
    | cons h1 _ ih => simp [h1.1, ih]
  | cons s p =>
    have := dsame_struct h (s :: p)
    cases s <;> exact this

/-! ## Lists and maps of values -/

theorem same_lists {xs ws : List Value} (hs : Same (.array xs) (.array ws)) (hu : UniqueKeys (.array xs)) (hu' : UniqueKeys (.array ws)) :
    List.Forall₂ (fun x w => Same x w ∧ UniqueKeys x ∧ UniqueKeys w) xs ws := by
  rw [same_array] at hs
  rw [uniqueKeys_array] at hu hu'
  exact forall2_of_index hs.1 fun i x w hx hw => ⟨hs.2 i x w hx hw, hu x (List.mem_of_getElem? hx), hu' w (List.mem_of_getElem? hw)⟩

theorem blind_list {dec : Decoder} (hb : AnyOrder dec) {xs ws : List Value} (hs : List.Forall₂ (fun x w => Same x w ∧ UniqueKeys x ∧ UniqueKeys w) xs ws) :
    ∀ {ys : List Data}, List.Forall₂ (fun x y => dec x = .ok y) xs ys →
      ∃ ys', List.Forall₂ (fun x y => dec x = .ok y) ws ys' ∧ List.Forall₂ DSame ys ys' := by
  induction hs with
  | nil => intro ys h; cases h; exact ⟨[], .nil, .nil⟩
  | cons h1 _ ih =>
    intro ys h
    cases h with
    | cons g1 g2 =>
      obtain ⟨d', e1, e2⟩ := hb _ _ _ h1.2.1 h1.2.2 h1.1 g1
      obtain ⟨ys', e3, e4⟩ := ih g2
      exact ⟨d' :: ys', .cons e1 e3, .cons e2 e4⟩

theorem blind_each {owned : Bool} : ∀ {rs : List Reader} (_ : ∀ r ∈ rs, AnyOrder (r.buffered owned)) {xs ws : List Value}
    (_ : List.Forall₂ (fun x w => Same x w ∧ UniqueKeys x ∧ UniqueKeys w) xs ws) {ys : List Data} (_ : EachReads owned rs xs ys),
    ∃ ys', EachReads owned rs ws ys' ∧ List.Forall₂ DSame ys ys' := by
  intro rs hb xs ws hs ys h
  obtain ⟨hl, hi⟩ := forall2_index hs
  obtain ⟨l1, l2, h3⟩ := h
  have step : ∀ i, i < rs.length → ∃ y', ∀ r w y, rs[i]? = some r → ws[i]? = some w → ys[i]? = some y → r.buffered owned w = .ok y' ∧ DSame y y' := by
    intro i hlt
    obtain ⟨r, hr⟩ := get_of_lt hlt
    obtain ⟨x, hx⟩ := get_of_lt (show i < xs.length by omega)
    obtain ⟨w, hw⟩ := get_of_lt (show i < ws.length by omega)
    obtain ⟨y, hy⟩ := get_of_lt (show i < ys.length by omega)
    obtain ⟨g1, g2, g3⟩ := hi i x w hx hw
    obtain ⟨y', e1, e2⟩ := hb r (List.mem_of_getElem? hr) x w y g2 g3 g1 (h3 i r x y hr hx hy)
    refine ⟨y', fun r' w' y'' f1 f2 f3 => ?_⟩
    rw [hr] at f1; rw [hw] at f2; rw [hy] at f3
    cases f1; cases f2; cases f3
    exact ⟨e1, e2⟩
  obtain ⟨ys', l3, h4⟩ := list_choose _ step
  refine ⟨ys', ⟨by omega, l3, fun j r w y' hr hw hy' => ?_⟩, forall2_of_index (by omega) fun i y y' hy hy' => ?_⟩
  · obtain ⟨y, hy⟩ := get_of_lt (show j < ys.length by have := lt_of_get hr; omega)
    exact (h4 j y' hy' r w y hr hw hy).1
  · have hlt := lt_of_get hy
    obtain ⟨r, hr⟩ := get_of_lt (show i < rs.length by omega)
    obtain ⟨w, hw⟩ := get_of_lt (show i < ws.length by omega)
    exact (h4 i y' hy' r w y hr hw hy).2

/-- Fields, each with what reads it. -/
theorem blind_fields {dec : RField → Decoder} {fs : List RField} (hb : ∀ f ∈ fs, AnyOrder (dec f)) {m n : Entries}
    (hs : Same (.map m) (.map n)) (hu : UniqueKeys (.map m)) (hu' : UniqueKeys (.map n)) {ds : List (String × Data)}
    (h : List.Forall₂ (fun f nd => nd.1 = f.name ∧ (∀ x, hmGet m f.name = some x → dec f x = .ok nd.2) ∧ (hmGet m f.name = none → f.missing = .ok nd.2)) fs ds) :
    ∃ ds' : List (String × Data), List.Forall₂ (fun f nd => nd.1 = f.name ∧ (∀ x, hmGet n f.name = some x → dec f x = .ok nd.2) ∧ (hmGet n f.name = none → f.missing = .ok nd.2)) fs ds' ∧
      List.Forall₂ (fun a b => a.1 = b.1 ∧ DSame a.2 b.2) ds ds' := by
  rw [same_map] at hs
  induction h with
  | nil => exact ⟨[], .nil, .nil⟩
  | @cons f nd fs ds h1 _ ih =>
    obtain ⟨ds', g1, g2⟩ := ih fun f hf => hb f (by simp [hf])
    obtain ⟨e1, e2⟩ := hs f.name
    cases hm : hmGet m f.name with
    | none =>
      have hn := e1.1 hm
      refine ⟨(f.name, nd.2) :: ds', .cons ⟨rfl, fun x hx => ?_, fun _ => h1.2.2 hm⟩ g1, .cons ⟨h1.1, DSame.refl _⟩ g2⟩
      rw [hn] at hx; cases hx
    | some x =>
      have hne : hmGet n f.name ≠ none := fun e => by rw [e1.2 e] at hm; cases hm
      obtain ⟨w, hw⟩ := Option.ne_none_iff_exists'.1 hne
      obtain ⟨d', e3, e4⟩ := hb f (List.mem_cons_self) x w nd.2 ((uniqueKeys_map.1 hu).2 _ (hmGet_mem hm)) ((uniqueKeys_map.1 hu').2 _ (hmGet_mem hw))
        (e2 x w hm hw) (h1.2.1 x hm)
      refine ⟨(f.name, d') :: ds', .cons ⟨rfl, fun y hy => ?_, fun h => ?_⟩ g1, .cons ⟨h1.1, e4⟩ g2⟩
      · rw [hw] at hy; cases hy; exact e3
      · rw [hw] at h; cases h

theorem entries_child {dec : Decoder} {m : Entries} {es : List (Data × Data)}
    (h : List.Forall₂ (fun e (x : Data × Data) => x.1 = .str e.1 ∧ dec e.2 = .ok x.2) m es) (s : String) :
    (hmGet m s = none → dchild (.map es) (.key (.str s)) = none) ∧ ∀ v, hmGet m s = some v → ∃ y, dchild (.map es) (.key (.str s)) = some y ∧ dec v = .ok y := by
  induction h with
  | nil => exact ⟨fun _ => rfl, fun v h => by cases h⟩
  | @cons e x m es h1 _ ih =>
    obtain ⟨k, v⟩ := e
    obtain ⟨kd, d⟩ := x
    obtain ⟨rfl, h2⟩ := h1
    rw [hmGet_cons]
    simp only [dchild, List.find?_cons, keyOf] at ih ⊢
    by_cases hk : k = s
    · subst hk
      rw [if_pos rfl, beq_self_eq_true]
      refine ⟨fun h => (by cases h), fun v' hv => ?_⟩
      cases hv
      exact ⟨d, rfl, h2⟩
    · have : (some (Key.str k) == some (Key.str s)) = false := by simp [hk]
      rw [if_neg hk, this]
      exact ih

theorem entries_child_other {dec : Decoder} {m : Entries} {es : List (Data × Data)}
    (h : List.Forall₂ (fun e (x : Data × Data) => x.1 = .str e.1 ∧ dec e.2 = .ok x.2) m es) (k : Key) (hk : ∀ s, k ≠ .str s) :
    dchild (.map es) (.key k) = none := by
  induction h with
  | nil => rfl
  | @cons e x m es h1 _ ih =>
    simp only [dchild, List.find?_cons, h1.1, keyOf] at ih ⊢
    have : (some (Key.str e.1) == some k) = false := by simpa using (hk e.1).symm
    rw [this]
    exact ih

/-- Entries of a map. -/
theorem blind_entries {dec : Decoder} (hb : AnyOrder dec) {m n : Entries} (hs : Same (.map m) (.map n)) (hu : UniqueKeys (.map m)) (hu' : UniqueKeys (.map n))
    {es : List (Data × Data)} (h : List.Forall₂ (fun e (x : Data × Data) => x.1 = .str e.1 ∧ dec e.2 = .ok x.2) m es) :
    ∃ es', List.Forall₂ (fun e (x : Data × Data) => x.1 = .str e.1 ∧ dec e.2 = .ok x.2) n es' ∧ DSame (.map es) (.map es') := by
  obtain ⟨u1, u2⟩ := uniqueKeys_map.1 hu
  obtain ⟨u1', u2'⟩ := uniqueKeys_map.1 hu'
  rw [same_map] at hs
  obtain ⟨es', h'⟩ := forall2_exists (l := n) (R := fun e (x : Data × Data) => x.1 = .str e.1 ∧ dec e.2 = .ok x.2) (fun e he => by
    have hw := hmGet_of_mem u1' (show (e.1, e.2) ∈ n from he)
    have hne : hmGet m e.1 ≠ none := fun h => by rw [(hs e.1).1.1 h] at hw; cases hw
    obtain ⟨x, hx⟩ := Option.ne_none_iff_exists'.1 hne
    obtain ⟨y, -, hy⟩ := (entries_child h e.1).2 x hx
    obtain ⟨d', e3, -⟩ := hb x e.2 y (u2 _ (hmGet_mem hx)) (u2' e he) ((hs e.1).2 x e.2 hx hw) hy
    exact ⟨(.str e.1, d'), rfl, e3⟩)
  refine ⟨es', h', fun p => ?_⟩
  cases p with
  | nil => rfl
  | cons st p =>
    cases st with
    | key k =>
      by_cases hk : ∃ s, k = .str s
      · obtain ⟨s, rfl⟩ := hk
        rw [dview, dview]
        cases hm : hmGet m s with
        | none => rw [(entries_child h s).1 hm, (entries_child h' s).1 ((hs s).1.1 hm)]
        | some x =>
          have hne : hmGet n s ≠ none := fun h => by rw [(hs s).1.2 h] at hm; cases hm
          obtain ⟨w, hw⟩ := Option.ne_none_iff_exists'.1 hne
          obtain ⟨y, hy, hy2⟩ := (entries_child h s).2 x hm
          obtain ⟨y', hy', hy2'⟩ := (entries_child h' s).2 w hw
          rw [hy, hy']
          obtain ⟨d', e3, e4⟩ := hb x w y (u2 _ (hmGet_mem hm)) (u2' _ (hmGet_mem hw)) ((hs s).2 x w hm hw) hy2
          rw [hy2'] at e3
          cases e3
          exact e4 p
      · have hk : ∀ s, k ≠ .str s := fun s e => hk ⟨s, e⟩
        rw [dview, dview, entries_child_other h k hk, entries_child_other h' k hk]
    | _ => rfl

/-! ## Types -/

theorem blind_scalar {dec : Decoder} (h : ∀ v d, dec v = .ok d → isScalar v = true) : AnyOrder dec := by
  intro v v' d _ _ hs hd
  rw [same_scalar (h v d hd) hs]
  exact ⟨d, hd, DSame.refl d⟩

/-- **C99**, scalars: read directly or from a buffer, they do not depend on any order. -/
theorem C99_scalars (how : How) : AnyOrder (readBy Reader.bool how) ∧ (∀ t, AnyOrder (readBy (Reader.int t) how)) ∧ AnyOrder (readBy Reader.f64 how) ∧
    AnyOrder (readBy Reader.f32 how) ∧ AnyOrder (readBy Reader.char how) ∧ AnyOrder (readBy Reader.string how) ∧ AnyOrder (readBy Reader.unit how) := by
  have sc : ∀ {dec : Decoder} {s : Scalar} {f : s.T → Data}, (∀ v, dec v = (Outcome.ofExcept (v.tryInto s) >>= fun a => Outcome.ok (f a))) → AnyOrder dec := by
    intro dec s f h
    refine blind_scalar fun v d hd => ?_
    rw [h, bind_eq_ok] at hd
    obtain ⟨a, h1, _⟩ := hd
    rw [ofExcept_ok] at h1
    exact tryInto_scalar h1
  cases how with
  | direct =>
    refine ⟨sc (s := .bool) (f := .bool) fun v => ?_, fun t => ?_, sc (s := .f64) (f := .f64) fun v => ?_,
      sc (s := .f64) (f := fun x => .f32 (F32.ofF64 x)) fun v => ?_, sc (s := .char) (f := .char) fun v => ?_, sc (s := .string) (f := .str) fun v => ?_, ?_⟩
    · show de _ _ _ = _; rw [de]
    · by_cases hu : Upto64 t
      · exact sc (s := .int t) (f := .int t) fun v => by show de _ _ _ = _; rw [de, deInt_eq hu]
      · refine blind_scalar fun v d hd => ?_
        have : t = .i128 ∨ t = .u128 := by
          by_contra h
          rw [not_or] at h
          exact hu h
        replace hd : de (fun _ _ => .panic) (.int t) v = .ok d := hd
        rw [de] at hd
        rcases this with rfl | rfl <;> cases hd
    · show de _ _ _ = _; rw [de]
    · show de _ _ _ = _; rw [de]
    · show de _ _ _ = _; rw [de]
    · show de _ _ _ = _; rw [de]
    · refine blind_scalar fun v d hd => ?_
      replace hd : de (fun _ _ => .panic) .unit v = .ok d := hd
      cases v <;> first | rfl | (simp [de] at hd)
  | buffered o =>
    refine ⟨blind_scalar fun v d hd => ?_, fun t => blind_scalar fun v d hd => ?_, blind_scalar fun v d hd => ?_, blind_scalar fun v d hd => ?_,
      blind_scalar fun v d hd => ?_, blind_scalar fun v d hd => ?_, ?_⟩
    · cases v <;> first | rfl | cases hd
    · cases v <;> first | rfl | (cases t <;> cases hd)
    · cases v <;> first | rfl | cases hd
    · cases v <;> first | rfl | cases hd
    · cases v <;> first | rfl | cases hd
    · cases v <;> first | rfl | cases hd
    · intro v v' d _ _ hs hd
      replace hd : Reader.unit.buffered o v = .ok d := hd
      obtain ⟨rfl, rfl | ⟨ho, rfl⟩⟩ := unit_buffered.1 hd
      · rw [same_scalar rfl hs]
        exact ⟨.unit, hd, DSame.refl _⟩
      · obtain ⟨n, rfl⟩ := same_map_left hs
        have : n = [] := by
          cases n with
          | nil => rfl
          | cons e r =>
            have := ((same_map.1 hs) e.1).1.1 rfl
            rw [hmGet_cons, if_pos rfl] at this; cases this
        subst this
        exact ⟨.unit, hd, DSame.refl _⟩

theorem blind_option {dec : Decoder} (hb : AnyOrder dec) : AnyOrder (fun v => match v with
    | .none => .ok .none
    | v => dec v >>= fun d => .ok (.some d)) := by
  intro v v' d hu hu' hs hd
  have key : ∀ w, w ≠ Value.none → ∀ d, (dec w >>= fun d => (.ok (.some d) : Outcome ModelError Data)) = .ok d →
      (match w with | .none => .ok .none | v => dec v >>= fun d => .ok (.some d) : Outcome ModelError Data) = .ok d := by
    intro w hw d h
    cases w <;> first | exact absurd rfl hw | exact h
  by_cases hv : v = .none
  · subst hv
    rw [same_scalar rfl hs]
    exact ⟨d, hd, DSame.refl d⟩
  · have hv' : v' ≠ .none := by
      rintro rfl
      exact hv (same_scalar rfl (Same.symm hs))
    have hd' : (dec v >>= fun d => (.ok (.some d) : Outcome ModelError Data)) = .ok d := by
      cases v <;> first | exact absurd rfl hv | exact hd
    obtain ⟨x, h1, h2⟩ := bind_eq_ok.1 hd'
    cases h2
    obtain ⟨x', h3, h4⟩ := hb v v' x hu hu' hs h1
    exact ⟨.some x', key v' hv' _ (bind_eq_ok.2 ⟨x', h3, rfl⟩), dsame_some h4⟩

theorem blind_vec {dec : Decoder} (hb : AnyOrder dec) (bad : Value → Outcome ModelError Data) (hbad : ∀ v d, bad v ≠ .ok d) : AnyOrder (fun v => match v with
    | .array xs => deVecLoop dec [] xs >>= fun ds => .ok (.seq ds)
    | v => bad v) := by
  intro v v' d hu hu' hs hd
  cases v with
  | array xs =>
    obtain ⟨ws, rfl⟩ := same_array_left hs
    obtain ⟨ds, h1, h2⟩ := bind_eq_ok.1 hd
    cases h2
    obtain ⟨ys, h3, rfl⟩ := (deVecLoop_ok _ xs [] _).1 h1
    obtain ⟨ys', h4, h5⟩ := blind_list hb (same_lists hs hu hu') h3
    exact ⟨.seq ys', bind_eq_ok.2 ⟨ys', (deVecLoop_ok _ ws [] _).2 ⟨ys', h4, rfl⟩, rfl⟩, dsame_seq h5⟩
  | _ => exact absurd hd (hbad _ d)

theorem blind_map {dec : Decoder} (hb : AnyOrder dec) (bad : Value → Outcome ModelError Data) (hbad : ∀ v d, bad v ≠ .ok d) : AnyOrder (fun v => match v with
    | .map m => deMapLoop .string dec [] m >>= fun es => .ok (.map (es.map fun e => (e.1.toData, e.2)))
    | v => bad v) := by
  intro v v' d hu hu' hs hd
  cases v with
  | map m =>
    obtain ⟨n, rfl⟩ := same_map_left hs
    obtain ⟨es, rfl, h1⟩ := (mapReads_iff dec m (uniqueKeys_map.1 hu).1 d).1 hd
    obtain ⟨es', h2, h3⟩ := blind_entries hb hs hu hu' h1
    exact ⟨.map es', (mapReads_iff dec n (uniqueKeys_map.1 hu').1 _).2 ⟨es', rfl, h2⟩, h3⟩
  | _ => exact absurd hd (hbad _ d)

/-- **C99**, containers: if what they are made of is read without regard to the order, so are they. -/
theorem C99_containers (how : How) (r : Reader) (hr : AnyOrder (readBy r how)) : AnyOrder (readBy (Reader.option r) how) ∧ AnyOrder (readBy (Reader.newtype r) how) ∧
    AnyOrder (readBy (Reader.vec r) how) ∧ AnyOrder (readBy (Reader.map r) how) := by
  have nt : ∀ {dec : Decoder}, AnyOrder dec → AnyOrder (fun v => dec v >>= fun d => .ok (.newtypeStruct d)) := by
    intro dec hb v v' d hu hu' hs hd
    obtain ⟨x, h1, h2⟩ := bind_eq_ok.1 hd
    cases h2
    obtain ⟨x', h3, h4⟩ := hb v v' x hu hu' hs h1
    exact ⟨.newtypeStruct x', bind_eq_ok.2 ⟨x', h3, rfl⟩, dsame_newtype h4⟩
  cases how with
  | direct =>
    exact ⟨blind_option hr, nt hr, blind_vec hr (fun v => .err (cannot v "Array")) (fun v d h => by cases h),
      blind_map hr (fun v => .err (cannot v "Map")) (fun v d h => by cases h)⟩
  | buffered o =>
    exact ⟨blind_option hr, nt hr, blind_vec hr (fun v => badContent "a sequence") (fun v d h => by cases h),
      blind_map hr (fun v => badContent "a map") (fun v d h => by cases h)⟩

theorem directReads_iff {fs : List RField} (hf : (fs.map RField.name).Nodup) {m : Entries} (hn : (m.map Prod.fst).Nodup) {d : Data} :
    deStruct (fs.map RField.directDec) (.map m) = .ok d ↔ ∃ ds, d = .struct ds ∧
      List.Forall₂ (fun f nd => nd.1 = f.name ∧ (∀ x, hmGet m f.name = some x → f.reader.direct x = .ok nd.2) ∧ (hmGet m f.name = none → f.missing = .ok nd.2)) fs ds := by
  rw [deStruct_ok _ (by rw [List.map_map]; exact hf) m hn]
  refine exists_congr fun ds => and_congr_right fun _ => ?_
  rw [List.forall₂_map_left_iff]
  have : ∀ (f : RField) (nd : String × Data), (nd.1 = f.directDec.name ∧ (match hmGet m f.directDec.name with | some v => f.directDec.dec v | none => f.directDec.missing) = .ok nd.2) ↔
      (nd.1 = f.name ∧ (∀ x, hmGet m f.name = some x → f.reader.direct x = .ok nd.2) ∧ (hmGet m f.name = none → f.missing = .ok nd.2)) := by
    intro f nd
    refine and_congr_right fun _ => ?_
    show (match hmGet m f.name with | some v => f.reader.direct v | none => f.missing) = .ok nd.2 ↔ _
    cases hmGet m f.name with
    | none => simp
    | some x => simp
  exact ⟨fun h => h.imp fun f nd => (this f nd).1, fun h => h.imp fun f nd => (this f nd).2⟩

theorem fieldsRead_blind {owned : Bool} {fs : List RField} (hb : ∀ f ∈ fs, AnyOrder (f.reader.buffered owned)) {v v' : Value} (hu : UniqueKeys v) (hu' : UniqueKeys v')
    (hs : Same v v') {ds : List (String × Data)} (h : FieldsRead owned fs v ds) :
    ∃ ds', FieldsRead owned fs v' ds' ∧ List.Forall₂ (fun a b => a.1 = b.1 ∧ DSame a.2 b.2) ds ds' := by
  cases h with
  | map ds hm h =>
    cases v with
    | map m =>
      obtain ⟨n, rfl⟩ := same_map_left hs
      simp only [FieldReads, child_key_map] at h
      obtain ⟨ds', h1, h2⟩ := blind_fields (dec := fun f => f.reader.buffered owned) hb hs hu hu' h
      refine ⟨ds', .map ds' rfl ?_, h2⟩
      simp only [FieldReads, child_key_map]
      exact h1
    | _ => cases hm
  | seq xs ds hv h =>
    subst hv
    obtain ⟨ws, rfl⟩ := same_array_left hs
    obtain ⟨ys', h1, h2⟩ := blind_each (rs := fs.map RField.reader) (fun r hr => by
      obtain ⟨f, hf, rfl⟩ := List.mem_map.1 hr; exact hb f hf) (same_lists hs hu hu') h
    refine ⟨_, .seq ws ys' rfl h1, ?_⟩
    clear h h1
    generalize fs.map RField.name = names
    induction h2 generalizing names with
    | nil => simp
    | cons g1 _ ih =>
      cases names with
      | nil => exact .nil
      | cons n r => exact .cons ⟨rfl, g1⟩ (ih r)

/-- **C99**, structs. -/
theorem C99_struct (how : How) (fs : List RField) (hf : (fs.map RField.name).Nodup) (hb : ∀ f ∈ fs, AnyOrder (readBy f.reader how)) :
    AnyOrder (readBy (Reader.struct fs) how) := by
  intro v v' d hu hu' hs hd
  cases how with
  | direct =>
    cases v with
    | map m =>
      obtain ⟨n, rfl⟩ := same_map_left hs
      obtain ⟨ds, rfl, h⟩ := (directReads_iff hf (uniqueKeys_map.1 hu).1).1 hd
      obtain ⟨ds', h1, h2⟩ := blind_fields (dec := fun f => f.reader.direct) hb hs hu hu' h
      exact ⟨.struct ds', (directReads_iff hf (uniqueKeys_map.1 hu').1).2 ⟨ds', rfl, h1⟩, dsame_struct h2⟩
    | _ => cases hd
  | buffered o =>
    obtain ⟨ds, h1, h2⟩ := bind_eq_ok.1 (show (bufFields o fs v >>= fun ds => (.ok (.struct ds) : Outcome ModelError Data)) = .ok d from hd)
    cases h2
    obtain ⟨ds', h3, h4⟩ := fieldsRead_blind hb hu hu' hs ((fieldsRead_iff hf hu).1 h1)
    exact ⟨.struct ds', bind_eq_ok.2 ⟨ds', (fieldsRead_iff hf hu').2 h3, rfl⟩, dsame_struct h4⟩

/-! ## Enums -/

theorem content_blind {owned : Bool} {va : Variant} (hb : ShapeBlind owned va.shape) {v v' : Value} (hu : UniqueKeys v) (hu' : UniqueKeys v') (hs : Same v v')
    {d : Data} (h : ContentReads owned va v d) : ∃ d', ContentReads owned va v' d' ∧ DSame d d' := by
  cases h with
  | unit hsh hv =>
    subst hv
    rw [same_scalar rfl hs]
    exact ⟨_, .unit hsh rfl, DSame.refl _⟩
  | newtype r d hsh h =>
    rw [hsh] at hb
    obtain ⟨d', h1, h2⟩ := hb v v' d hu hu' hs h
    exact ⟨_, .newtype r d' hsh h1, dsame_newtypeVariant h2⟩
  | tuple rs xs ds hsh hv h =>
    subst hv
    rw [hsh] at hb
    obtain ⟨ws, rfl⟩ := same_array_left hs
    obtain ⟨ds', h1, h2⟩ := blind_each hb (same_lists hs hu hu') h
    exact ⟨_, .tuple rs ws ds' hsh rfl h1, dsame_tupleVariant h2⟩
  | struct fs ds hsh h =>
    rw [hsh] at hb
    obtain ⟨ds', h1, h2⟩ := fieldsRead_blind hb.2 hu hu' hs h
    exact ⟨_, .struct fs ds' hsh h1, dsame_structVariant h2⟩

theorem content_of_fits {va : Variant} {x : Value} {d : Data} (h : Fits va x d) : ContentReads false va x d := by
  cases h with
  | unit hs hv => exact .unit hs hv
  | newtype r d hs h => exact .newtype r d hs h
  | tuple rs xs ds hs hv h => exact .tuple rs xs ds hs hv h
  | struct fs ds hs h => exact .struct fs ds hs h

theorem fits_blind {va : Variant} (hb : ShapeBlind false va.shape) {v v' : Value} (hu : UniqueKeys v) (hu' : UniqueKeys v') (hs : Same v v')
    {d : Data} (h : Fits va v d) : ∃ d', Fits va v' d' ∧ DSame d d' := by
  obtain ⟨d', h1, h2⟩ := content_blind hb hu hu' hs (content_of_fits h)
  exact ⟨d', fits_of_content h1, h2⟩

/-- **C99**, untagged enums: the same variant is chosen. -/
theorem C99_untagged (how : How) (vs : List Variant) (hs : ∀ va ∈ vs, ShapeFine va.shape) (hb : ∀ va ∈ vs, ShapeBlind false va.shape) :
    AnyOrder (readBy (Reader.untagged vs) how) := by
  intro v v' d hu hu' hsame hd
  have key : ∀ {d}, (∃ pre va post, vs = pre ++ va :: post ∧ Fits va v d ∧ ∀ a ∈ pre, ∀ d', ¬ Fits a v d') →
      ∃ d', (∃ pre va post, vs = pre ++ va :: post ∧ Fits va v' d' ∧ ∀ a ∈ pre, ∀ d'', ¬ Fits a v' d'') ∧ DSame d d' := by
    rintro d ⟨pre, va, post, rfl, h1, h2⟩
    obtain ⟨d', h3, h4⟩ := fits_blind (hb va (by simp)) hu hu' hsame h1
    refine ⟨d', ⟨pre, va, post, rfl, h3, fun a ha d'' h => ?_⟩, h4⟩
    obtain ⟨e, h5, -⟩ := fits_blind (hb a (by simp [ha])) hu' hu (Same.symm hsame) h
    exact h2 a ha e h5
  cases how with
  | direct =>
    obtain ⟨h1, h2⟩ := ((C91_untagged vs hs v hu).1 d).1 hd
    obtain ⟨d', h3, h4⟩ := key h2
    exact ⟨d', ((C91_untagged vs hs v' hu').1 d').2 ⟨fun h => h1 ((holds128_same hsame).2 h), h3⟩, h4⟩
  | buffered o =>
    obtain ⟨d', h3, h4⟩ := key ((tryVariants_iff hs hu).1 hd)
    exact ⟨d', (tryVariants_iff hs hu').2 h3, h4⟩

theorem same_single {k : String} {x : Value} {n : Entries} (hs : Same (.map [(k, x)]) (.map n)) (hn : (n.map Prod.fst).Nodup) :
    ∃ x', n = [(k, x')] ∧ Same x x' := by
  rw [same_map] at hs
  cases n with
  | nil =>
    have := (hs k).1.2 rfl
    rw [hmGet_cons, if_pos rfl] at this; cases this
  | cons e r =>
    obtain ⟨k1, x1⟩ := e
    have hk : ∀ q, hmGet ((k1, x1) :: r) q ≠ none → q = k := by
      intro q hq
      by_contra hne
      exact hq ((hs q).1.1 (by rw [hmGet_cons, if_neg (Ne.symm hne)]; rfl))
    have h1 : k1 = k := hk k1 (by rw [hmGet_cons, if_pos rfl]; simp)
    subst h1
    have hr : r = [] := by
      cases r with
      | nil => rfl
      | cons e2 r2 =>
        obtain ⟨k2, x2⟩ := e2
        have hne : k1 ≠ k2 := by
          intro e
          rw [List.map_cons, List.map_cons, List.nodup_cons] at hn
          exact hn.1 (by rw [e]; exact List.mem_cons_self)
        have h2 : k2 = k1 := hk k2 (by rw [hmGet_cons, if_neg hne, hmGet_cons, if_pos rfl]; simp)
        exact absurd h2.symm hne
    subst hr
    exact ⟨x1, rfl, (hs k1).2 x x1 (by rw [hmGet_cons, if_pos rfl]) (by rw [hmGet_cons, if_pos rfl])⟩

/-- What is read from the map of a plain enum. -/
theorem enum_entry {owned : Bool} {vs : List Variant} (hs : ∀ va ∈ vs, ShapeFine va.shape) {k : String} {x : Value} (hu : UniqueKeys x) {d : Data} :
    (Reader.enum vs).buffered owned (.map [(k, x)]) = .ok d ↔ ∃ va, vs.find? (fun a => a.name == k) = some va ∧
      (va.shape = .unit ∧ Reader.unit.buffered owned x = .ok .unit ∧ d = .unitVariant va.name ∨ va.shape ≠ .unit ∧ ContentReads owned va x d) := by
  have unf : (Reader.enum vs).buffered owned (.map [(k, x)]) = (findVariant vs k >>= fun va => match va.shape with
      | .unit => Reader.unit.buffered owned x >>= fun _ => .ok (.unitVariant va.name)
      | .newtype r => r.buffered owned x >>= fun d => .ok (.newtypeVariant va.name d)
      | .tuple rs => match x with
        | .array xs => bufTuple (rs.map fun r => r.buffered owned) xs >>= fun ds => .ok (.tupleVariant va.name ds)
        | _ => badContent "tuple variant"
      | .struct fs => bufFields owned fs x >>= fun ds => .ok (.structVariant va.name ds)) := rfl
  rw [unf, bind_eq_ok]
  refine exists_congr fun va => ?_
  rw [findVariant_ok]
  refine and_congr_right fun hf => ?_
  have hva := hs va (List.mem_of_find?_eq_some hf)
  have hc := adjContent_iff (owned := owned) hva hu (d := d)
  unfold adjContent at hc
  cases hsh : va.shape with
  | unit =>
    simp only [bind_eq_ok, ne_eq, not_true, false_and, or_false, true_and]
    constructor
    · rintro ⟨u, h1, h2⟩
      cases h2
      obtain ⟨rfl, -⟩ := unit_buffered.1 h1
      exact ⟨h1, rfl⟩
    · rintro ⟨h1, rfl⟩; exact ⟨_, h1, rfl⟩
  | newtype r => rw [hsh] at hc; simpa using hc
  | tuple rs => rw [hsh] at hc; cases x <;> simpa using hc
  | struct fs => rw [hsh] at hc; simpa using hc

/-- **C99**, plain enums (which are read from a buffer only). -/
theorem C99_enum (how : How) (vs : List Variant) (hs : ∀ va ∈ vs, ShapeFine va.shape) (hb : ∀ owned, how = .buffered owned → ∀ va ∈ vs, ShapeBlind owned va.shape) :
    AnyOrder (readBy (Reader.enum vs) how) := by
  intro v v' d hu hu' hsame hd
  cases how with
  | direct => cases hd
  | buffered o =>
    replace hd : (Reader.enum vs).buffered o v = .ok d := hd
    show ∃ d', (Reader.enum vs).buffered o v' = .ok d' ∧ DSame d d'
    cases v with
    | string s => rw [same_scalar rfl hsame]; exact ⟨d, hd, DSame.refl d⟩
    | map m =>
      obtain ⟨n, rfl⟩ := same_map_left hsame
      cases m with
      | nil => cases hd
      | cons e r =>
        cases r with
        | cons _ _ => cases hd
        | nil =>
          obtain ⟨k, x⟩ := e
          obtain ⟨x', rfl, hx⟩ := same_single hsame (uniqueKeys_map.1 hu').1
          have ux := (uniqueKeys_map.1 hu).2 (k, x) (List.mem_cons_self)
          have ux' := (uniqueKeys_map.1 hu').2 (k, x') (List.mem_cons_self)
          obtain ⟨va, h1, h2⟩ := (enum_entry hs ux).1 hd
          have hmem := List.mem_of_find?_eq_some h1
          rcases h2 with ⟨h2, h3, rfl⟩ | ⟨h2, h3⟩
          · obtain ⟨u', h4, -⟩ := (C99_scalars (.buffered o)).2.2.2.2.2.2 x x' .unit ux ux' hx h3
            have : u' = .unit := (unit_buffered.1 h4).1
            subst this
            exact ⟨_, (enum_entry hs ux').2 ⟨va, h1, Or.inl ⟨h2, h4, rfl⟩⟩, DSame.refl _⟩
          · obtain ⟨d', h4, h5⟩ := content_blind (hb o rfl va hmem) ux ux' hx h3
            exact ⟨d', (enum_entry hs ux').2 ⟨va, h1, Or.inr ⟨h2, h4⟩⟩, h5⟩
    | _ => cases hd

/-! ## Internally tagged enums -/

theorem rest_blind {va : Variant} (hb : ShapeBlind true va.shape) {v v' : Value} (hu : UniqueKeys v) (hu' : UniqueKeys v') (hs : Same v v')
    {d : Data} (h : RestReads va v d) : ∃ d', RestReads va v' d' ∧ DSame d d' := by
  cases h with
  | unit hsh => exact ⟨_, .unit hsh, DSame.refl _⟩
  | newtype r d hsh h =>
    rw [hsh] at hb
    obtain ⟨d', h1, h2⟩ := hb v v' d hu hu' hs h
    exact ⟨_, .newtype r d' hsh h1, dsame_newtypeVariant h2⟩
  | struct fs ds hsh h =>
    rw [hsh] at hb
    obtain ⟨ds', h1, h2⟩ := fieldsRead_blind hb.2 hu hu' hs h
    exact ⟨_, .struct fs ds' hsh h1, dsame_structVariant h2⟩

theorem same_without {m n : Entries} (hs : Same (.map m) (.map n)) (ks : List String) :
    Same (.map (without (.map m) ks)) (.map (without (.map n) ks)) := by
  rw [same_map] at hs ⊢
  intro k
  rw [without_map, without_map, hmGet_filter_keys (m := m) (fun k => !ks.contains k) k, hmGet_filter_keys (m := n) (fun k => !ks.contains k) k]
  split
  · exact hs k
  · exact ⟨Iff.rfl, fun x y h => by cases h⟩

theorem unique_without {v : Value} (hu : UniqueKeys v) (ks : List String) : UniqueKeys (.map (without v ks)) := by
  cases v with
  | map m => exact uniqueKeys_filter hu _
  | _ => exact uniqueKeys_map.2 ⟨List.nodup_nil, fun e he => by cases he⟩

theorem same_cons {x : Value} {xs ws : List Value} (hs : Same (.array (x :: xs)) (.array ws)) : ∃ x' ws', ws = x' :: ws' ∧ Same x x' ∧ Same (.array xs) (.array ws') := by
  rw [same_array] at hs
  obtain ⟨h1, h2⟩ := hs
  cases ws with
  | nil => cases h1
  | cons x' ws' =>
    refine ⟨x', ws', rfl, h2 0 x x' rfl rfl, same_array.2 ⟨by simpa using h1, fun i a b ha hb => h2 (i + 1) a b (by simpa using ha) (by simpa using hb)⟩⟩

theorem unique_cons {x : Value} {xs : List Value} (hu : UniqueKeys (.array (x :: xs))) : UniqueKeys x ∧ UniqueKeys (.array xs) := by
  rw [uniqueKeys_array] at hu
  exact ⟨hu x (List.mem_cons_self), uniqueKeys_array.2 fun y hy => hu y (List.mem_cons_of_mem _ hy)⟩

theorem taggedLoop_stored {tag : String} {ident : Value → Outcome ModelError Variant} (m : Entries) (hn : (m.map Prod.fst).Nodup) : ∀ rest,
    taggedLoop tag ident .ok none rest m = match hmGet m tag with
      | none => .ok (none, rest ++ m)
      | some x => ident x >>= fun va => .ok (some va, rest ++ m.filter fun e => ![tag].contains e.1) := by
  induction m with
  | nil => intro rest; simp [taggedLoop, hmGet]
  | cons e r ih =>
    obtain ⟨k, x⟩ := e
    intro rest
    rw [List.map_cons, List.nodup_cons] at hn
    rw [taggedLoop, hmGet_cons]
    by_cases hk : k = tag
    · subst hk
      rw [if_pos rfl, if_pos rfl, if_neg (by simp)]
      dsimp only
      congr 1
      funext va
      rw [taggedLoop_rest r hn.1]
      have : (List.filter (fun e => ![k].contains e.1) ((k, x) :: r)) = r := by
        rw [List.filter_cons_of_neg (by simp), List.filter_eq_self]
        intro e he
        have : e.1 ≠ k := fun h => hn.1 (List.mem_map.2 ⟨e, he, h⟩)
        simp [this]
      rw [this]
    · rw [if_neg hk, if_neg hk]
      show taggedLoop _ _ _ _ _ _ = _
      rw [ih hn.2, List.filter_cons_of_pos (by simp [hk])]
      simp

theorem contentVariant_scalar {vs : List Variant} {x : Value} {va : Variant} (h : contentVariant vs x = .ok va) : isScalar x = true := by
  cases x <;> first | rfl | cases h

theorem contentVariant_mem {vs : List Variant} {x : Value} {va : Variant} (h : contentVariant vs x = .ok va) : va ∈ vs := by
  cases x with
  | string s => exact List.mem_of_find?_eq_some (findVariant_ok.1 h)
  | uInteger n =>
    simp only [contentVariant] at h
    split at h
    · rename_i va' hva
      cases h
      exact List.mem_of_getElem? hva
    · cases h
  | _ => cases h

/-- Read from a buffer, from a map. -/
theorem tagged_buffered_map {tag : String} {vs : List Variant} (hs : ∀ va ∈ vs, ShapeFine va.shape) {m : Entries} (hu : UniqueKeys (.map m)) {d : Data} :
    readTagged tag (contentVariant vs) .ok (.map m) = .ok d ↔
      ∃ x va, hmGet m tag = some x ∧ contentVariant vs x = .ok va ∧ RestReads va (.map (without (.map m) [tag])) d := by
  simp only [readTagged]
  rw [taggedLoop_stored m (uniqueKeys_map.1 hu).1]
  cases hmGet m tag with
  | none => simp
  | some x =>
    simp only [bind_eq_ok, List.nil_append]
    constructor
    · rintro ⟨p, ⟨va, h1, h2⟩, h3⟩
      cases h2
      exact ⟨x, va, rfl, h1, (taggedVariant_iff (hs va (contentVariant_mem h1)) (unique_without hu [tag])).1 h3⟩
    · rintro ⟨x', va, hx, h1, h2⟩
      cases hx
      exact ⟨_, ⟨va, h1, rfl⟩, (taggedVariant_iff (hs va (contentVariant_mem h1)) (unique_without hu [tag])).2 h2⟩

theorem tagNames_iff {vs : List Variant} {x : Value} {va : Variant} : contentVariant vs x = .ok va ↔ TagNames vs x va := by
  cases x with
  | string s => exact ⟨fun h => .name s va (findVariant_ok.1 h), fun h => by cases h with | name _ _ h => exact findVariant_ok.2 h⟩
  | uInteger n =>
    constructor
    · intro h
      simp only [contentVariant] at h
      split at h
      · rename_i va' hva
        cases h
        exact .place n va hva
      · cases h
    · intro h
      cases h with
      | place _ _ h => simp only [contentVariant, h]
  | _ => exact ⟨fun h => (nomatch h), fun h => (nomatch h)⟩

/-- **C91**, an internally tagged enum inside a buffered type (a variant of an untagged enum, a flattened field, ...): the tag is taken as it is, a text naming the variant
or a `u64` counting them from zero, and the variant is read from the other entries. -/
theorem C91_tagged_within (tag : String) (vs : List Variant) (hs : ∀ va ∈ vs, ShapeFine va.shape) (owned : Bool) (v : Value) (hu : UniqueKeys v)
    (hm : v.isMap = true) (d : Data) :
    (Reader.tagged tag vs).buffered owned v = .ok d ↔
      ∃ x va, child v (.key tag) = some x ∧ TagNames vs x va ∧ RestReads va (.map (without v [tag])) d := by
  cases v with
  | map m =>
    show readTagged tag (contentVariant vs) .ok (.map m) = .ok d ↔ _
    rw [tagged_buffered_map hs hu]
    simp only [child_key_map, tagNames_iff]
  | _ => cases hm

/-- **C99**, internally tagged enums. -/
theorem C99_tagged (how : How) (tag : String) (vs : List Variant) (hs : ∀ va ∈ vs, ShapeFine va.shape) (hb : ∀ va ∈ vs, ShapeBlind true va.shape) :
    AnyOrder (readBy (Reader.tagged tag vs) how) := by
  intro v v' d hu hu' hsame hd
  -- what reads the tag, and what stores the rest
  have arr : ∀ {ident : Value → Outcome ModelError Variant} {store : Value → Outcome ModelError Value} {xs ws : List Value} {d : Data},
      (∀ x va, ident x = .ok va → isScalar x = true ∧ va ∈ vs) →
      (∀ a b, UniqueKeys a → UniqueKeys b → Same a b → ∀ c, store a = .ok c → c = a ∧ store b = .ok b) →
      UniqueKeys (.array xs) → UniqueKeys (.array ws) → Same (.array xs) (.array ws) →
      readTagged tag ident store (.array xs) = .ok d → ∃ d', readTagged tag ident store (.array ws) = .ok d' ∧ DSame d d' := by
    intro ident store xs ws d hid hst u1 u2 hsm h
    cases xs with
    | nil => cases h
    | cons x xs =>
      obtain ⟨x', ws', rfl, g1, g2⟩ := same_cons hsm
      obtain ⟨va, h1, h⟩ := bind_eq_ok.1 h
      obtain ⟨rest, h2, h3⟩ := bind_eq_ok.1 h
      obtain ⟨g3, g4⟩ := hid x va h1
      obtain ⟨e1, e2⟩ := hst _ _ (unique_cons u1).2 (unique_cons u2).2 g2 rest h2
      subst e1
      obtain ⟨d', f1, f2⟩ := rest_blind (hb va g4) (unique_cons u1).2 (unique_cons u2).2 g2 ((taggedVariant_iff (hs va g4) (unique_cons u1).2).1 h3)
      rw [same_scalar g3 g1]
      exact ⟨d', bind_eq_ok.2 ⟨va, h1, bind_eq_ok.2 ⟨_, e2, (taggedVariant_iff (hs va g4) (unique_cons u2).2).2 f1⟩⟩, f2⟩
  cases how with
  | direct =>
    replace hd : (Reader.tagged tag vs).direct v = .ok d := hd
    show ∃ d', (Reader.tagged tag vs).direct v' = .ok d' ∧ DSame d d'
    cases v with
    | map m =>
      obtain ⟨n, rfl⟩ := same_map_left hsame
      obtain ⟨x, name, va, h1, h2, h3, h4, h5⟩ := (C91_tagged tag vs hs _ hu rfl d).1 hd
      rw [child_key_map] at h1
      have hm := same_map.1 hsame
      have hne : hmGet n tag ≠ none := fun e => by rw [(hm tag).1.2 e] at h1; cases h1
      obtain ⟨w, hw⟩ := Option.ne_none_iff_exists'.1 hne
      have hxw : w = x := same_scalar (tryInto_scalar h2) ((hm tag).2 x w h1 hw)
      subst hxw
      obtain ⟨d', g1, g2⟩ := rest_blind (hb va (List.mem_of_find?_eq_some h3)) (unique_without hu [tag]) (unique_without hu' [tag]) (same_without hsame [tag]) h5
      refine ⟨d', (C91_tagged tag vs hs _ hu' rfl d').2 ⟨w, name, va, by rw [child_key_map]; exact hw, h2, h3, fun k y hk hy hh => ?_, g1⟩, g2⟩
      rw [child_key_map] at hy
      have hne : hmGet m k ≠ none := fun e => by rw [(hm k).1.1 e] at hy; cases hy
      obtain ⟨z, hz⟩ := Option.ne_none_iff_exists'.1 hne
      exact h4 k z hk (by rw [child_key_map]; exact hz) ((holds128_same ((hm k).2 z y hz hy)).2 hh)
    | array xs =>
      obtain ⟨ws, rfl⟩ := same_array_left hsame
      refine arr ?_ ?_ hu hu' hsame hd
      · intro x va h
        obtain ⟨name, h1, h2⟩ := bind_eq_ok.1 h
        rw [ofExcept_ok] at h1
        exact ⟨tryInto_scalar h1, List.mem_of_find?_eq_some (findVariant_ok.1 h2)⟩
      · intro a b ua ub hab c hc
        by_cases h : Holds128 a
        · obtain ⟨e, he⟩ := (C91_buffer a ua).2 h
          rw [he] at hc; cases hc
        · rw [(C91_buffer a ua).1 h] at hc
          cases hc
          exact ⟨rfl, (C91_buffer b ub).1 fun h' => h ((holds128_same hab).2 h')⟩
    | _ => cases hd
  | buffered o =>
    replace hd : readTagged tag (contentVariant vs) Outcome.ok v = .ok d := hd
    show ∃ d', readTagged tag (contentVariant vs) Outcome.ok v' = .ok d' ∧ DSame d d'
    cases v with
    | map m =>
      obtain ⟨n, rfl⟩ := same_map_left hsame
      obtain ⟨x, va, h1, h2, h5⟩ := (tagged_buffered_map hs hu).1 hd
      have hm := same_map.1 hsame
      have hne : hmGet n tag ≠ none := fun e => by rw [(hm tag).1.2 e] at h1; cases h1
      obtain ⟨w, hw⟩ := Option.ne_none_iff_exists'.1 hne
      have hxw : w = x := same_scalar (contentVariant_scalar h2) ((hm tag).2 x w h1 hw)
      subst hxw
      obtain ⟨d', g1, g2⟩ := rest_blind (hb va (contentVariant_mem h2)) (unique_without hu [tag]) (unique_without hu' [tag]) (same_without hsame [tag]) h5
      exact ⟨d', (tagged_buffered_map hs hu').2 ⟨w, va, hw, h2, g1⟩, g2⟩
    | array xs =>
      obtain ⟨ws, rfl⟩ := same_array_left hsame
      refine arr (fun x va h => ⟨contentVariant_scalar h, contentVariant_mem h⟩) ?_ hu hu' hsame hd
      intro a b _ _ _ c hc
      cases hc
      exact ⟨rfl, rfl⟩
    | _ => cases hd

theorem flattenLoop_ok_iff (fds : List FieldDec) (m : Entries) : ∀ acc rest p,
    (flattenLoop fds .ok acc rest m = .ok p ↔
      p.2 = rest ++ m.filter (fun e => !ownKey fds e.1) ∧ deStructLoop fds acc (m.filter fun e => ownKey fds e.1) = .ok p.1) := by
  induction m with
  | nil =>
    intro acc rest p
    simp only [flattenLoop, deStructLoop, List.filter_nil, Outcome.ok.injEq, List.append_nil]
    constructor
    · rintro rfl; exact ⟨rfl, rfl⟩
    · rintro ⟨h1, h2⟩; exact Prod.ext h2 h1.symm
  | cons e m ih =>
    intro acc rest p
    obtain ⟨k, x⟩ := e
    rw [flattenLoop]
    rcases find_own (fds := fds) (k := k) with ⟨fd, h1, h2⟩ | ⟨h1, h2⟩
    · have f1 : (((k, x) :: m).filter fun e => !ownKey fds e.1) = m.filter fun e => !ownKey fds e.1 := by
        rw [List.filter_cons_of_neg]; simp [h2]
      have f2 : (((k, x) :: m).filter fun e => ownKey fds e.1) = (k, x) :: m.filter fun e => ownKey fds e.1 := by
        rw [List.filter_cons_of_pos]; simp [h2]
      rw [f1, f2, deStructLoop, string_self]
      simp only [Outcome.bind_ok, h1]
      split
      · simp
      · simp only [bind_eq_ok, ih]
        constructor
        · rintro ⟨d, g1, a1, a3⟩; exact ⟨a1, d, g1, a3⟩
        · rintro ⟨a1, d, g1, a3⟩; exact ⟨d, g1, a1, a3⟩
    · have f1 : (((k, x) :: m).filter fun e => !ownKey fds e.1) = (k, x) :: m.filter fun e => !ownKey fds e.1 := by
        rw [List.filter_cons_of_pos]; simp [h2]
      have f2 : (((k, x) :: m).filter fun e => ownKey fds e.1) = m.filter fun e => ownKey fds e.1 := by
        rw [List.filter_cons_of_neg]; simp [h2]
      rw [f1, f2, h1]
      simp only [Outcome.bind_ok, ih, List.append_assoc, List.singleton_append]

/-- The flattened struct read from a buffer: like `C91_flatten`, but nothing is stored anew, so no entry is refused. -/
theorem flatten_stored_iff {owned : Bool} {fs : List RField} (hf : (fs.map RField.name).Nodup) {parts : List (String × Part)}
    (hp : ∀ n gs, (n, Part.struct gs) ∈ parts → (gs.map RField.name).Nodup) {m : Entries} (hu : UniqueKeys (.map m)) {d : Data} :
    (Reader.flatten fs parts).buffered owned (.map m) = .ok d ↔ ∃ ds ps, d = .struct (ds ++ ps) ∧
      List.Forall₂ (fun f nd => nd.1 = f.name ∧ (∀ x, hmGet m f.name = some x → f.reader.buffered owned x = .ok nd.2) ∧
        (hmGet m f.name = none → f.missing = .ok nd.2)) fs ds ∧
      PartsGet (.map m) (fs.map RField.name) parts ps := by
  obtain ⟨hn, hue⟩ := uniqueKeys_map.1 hu
  have hown : ∀ k, ownKey (fs.map (RField.bufferedDec owned)) k = (fs.map RField.name).contains k := by
    intro k
    rw [Bool.eq_iff_iff]
    simp only [ownKey, List.any_map, List.any_eq_true, beq_iff_eq, List.contains_iff_mem, List.mem_map, Function.comp]
    rfl
  have hwo : (m.filter fun e => !ownKey (fs.map (RField.bufferedDec owned)) e.1) = without (.map m) (fs.map RField.name) := by
    rw [without_map]; congr 1; funext e; rw [hown]
  have hfields : ∀ ds, deStruct (fs.map (RField.bufferedDec owned)) (.map (m.filter fun e => ownKey (fs.map (RField.bufferedDec owned)) e.1)) = .ok (.struct ds) ↔
      List.Forall₂ (fun f nd => nd.1 = f.name ∧ (∀ x, hmGet m f.name = some x → f.reader.buffered owned x = .ok nd.2) ∧
        (hmGet m f.name = none → f.missing = .ok nd.2)) fs ds := by
    intro ds
    rw [deStruct_ok _ (by rw [List.map_map]; exact hf) _ (hn.sublist (List.filter_sublist.map _))]
    simp only [Data.struct.injEq, exists_eq_left', List.forall₂_map_left_iff]
    have one : ∀ f ∈ fs, ∀ nd : String × Data,
        (nd.1 = (RField.bufferedDec owned f).name ∧ (match hmGet (m.filter fun e => ownKey (fs.map (RField.bufferedDec owned)) e.1) (RField.bufferedDec owned f).name with
          | some v => (RField.bufferedDec owned f).dec v | none => (RField.bufferedDec owned f).missing) = .ok nd.2) ↔
        (nd.1 = f.name ∧ (∀ x, hmGet m f.name = some x → f.reader.buffered owned x = .ok nd.2) ∧
          (hmGet m f.name = none → f.missing = .ok nd.2)) := by
      intro f hfm nd
      refine and_congr_right fun _ => ?_
      rw [show (RField.bufferedDec owned f).name = f.name from rfl, hmGet_filter_keys (m := m) (ownKey (fs.map (RField.bufferedDec owned))) f.name,
        if_pos (by rw [hown]; simpa using ⟨f, hfm, rfl⟩)]
      show (match hmGet m f.name with | some v => f.reader.buffered owned v | none => f.missing) = _ ↔ _
      cases hmGet m f.name <;> simp
    constructor
    · intro h
      refine forall2_of_index (forall2_index h).1 fun i f nd hfi hnd => ?_
      exact (one f (List.mem_of_getElem? hfi) nd).1 ((forall2_index h).2 i f nd hfi hnd)
    · intro h
      refine forall2_of_index (forall2_index h).1 fun i f nd hfi hnd => ?_
      exact (one f (List.mem_of_getElem? hfi) nd).2 ((forall2_index h).2 i f nd hfi hnd)
  simp only [Reader.flatten, readFlatten, bind_eq_ok]
  constructor
  · rintro ⟨p, h1, ds, h2, ps, h3, h4⟩
    obtain ⟨a1, a3⟩ := (flattenLoop_ok_iff _ m [] [] p).1 h1
    cases h4
    rw [List.nil_append, hwo] at a1
    rw [a1] at h3
    refine ⟨ds, ps, rfl, (hfields ds).1 ?_, (parts_iff hu parts hp _ ps).1 h3⟩
    simp only [deStruct, bind_eq_ok]
    exact ⟨p.1, a3, ds, h2, rfl⟩
  · rintro ⟨ds, ps, rfl, h1, h3⟩
    have h1 := (hfields ds).2 h1
    simp only [deStruct, bind_eq_ok] at h1
    obtain ⟨acc, g1, ds', g2, g3⟩ := h1
    cases g3
    refine ⟨(acc, without (.map m) (fs.map RField.name)), (flattenLoop_ok_iff _ m [] [] _).2 ⟨by rw [← hwo]; rfl, g1⟩, ds, g2, ps,
      (parts_iff hu parts hp _ ps).2 h3, rfl⟩

theorem partsGet_blind {m n : Entries} (hs : Same (.map m) (.map n)) (hu : UniqueKeys (.map m)) (hu' : UniqueKeys (.map n)) {taken : List String}
    {parts : List (String × Part)} {ps : List (String × Data)} (h : PartsGet (.map m) taken parts ps) : (∀ p ∈ parts, PartBlind p.2) →
    ∃ ps', PartsGet (.map n) taken parts ps' ∧ List.Forall₂ (fun a b => a.1 = b.1 ∧ DSame a.2 b.2) ps ps' := by
  induction h with
  | nil taken => intro _; exact ⟨[], .nil taken, .nil⟩
  | struct taken name fs ds parts ps h _ ih =>
    intro hb
    obtain ⟨ps', g1, g2⟩ := ih fun p hp => hb p (List.mem_cons_of_mem _ hp)
    obtain ⟨ds', g3, g4⟩ := blind_fields (dec := fun f => f.reader.buffered true) (hb _ List.mem_cons_self).2 (same_without hs taken) (unique_without hu taken) (unique_without hu' taken)
      (by simpa only [FieldReads, child_key_map] using h)
    exact ⟨_, .struct taken name fs ds' parts ps' (by simpa only [FieldReads, child_key_map] using g3) g1, .cons ⟨rfl, dsame_struct g4⟩ g2⟩
  | rest taken name r es parts ps h _ ih =>
    intro hb
    obtain ⟨ps', g1, g2⟩ := ih fun p hp => hb p (List.mem_cons_of_mem _ hp)
    obtain ⟨es', g3, g4⟩ := blind_entries (hb (name, .rest r) List.mem_cons_self) (same_without hs taken) (unique_without hu taken) (unique_without hu' taken) h
    exact ⟨_, .rest taken name r es' parts ps' g3 g1, .cons ⟨rfl, g4⟩ g2⟩

/-- **C99**, flattened fields. -/
theorem C99_flatten (how : How) (fs : List RField) (hf : (fs.map RField.name).Nodup) (hb : ∀ f ∈ fs, AnyOrder (readBy f.reader how))
    (parts : List (String × Part)) (hp : ∀ p ∈ parts, PartBlind p.2) : AnyOrder (readBy (Reader.flatten fs parts) how) := by
  intro v v' d hu hu' hs hd
  have hp' : ∀ n gs, (n, Part.struct gs) ∈ parts → (gs.map RField.name).Nodup := fun n gs h => (hp _ h).1
  cases v with
  | map m =>
    obtain ⟨n, rfl⟩ := same_map_left hs
    have hm := same_map.1 hs
    cases how with
    | direct =>
      obtain ⟨ds, ps, rfl, h1, h2, h3⟩ := (C91_flatten fs hf parts hp' _ hu rfl d).1 hd
      obtain ⟨ds', g1, g2⟩ := blind_fields (dec := fun f => f.reader.direct) hb hs hu hu' (by simpa only [child_key_map] using h1)
      obtain ⟨ps', g3, g4⟩ := partsGet_blind hs hu hu' h3 hp
      refine ⟨_, (C91_flatten fs hf parts hp' _ hu' rfl _).2 ⟨ds', ps', rfl, by simpa only [child_key_map] using g1, fun k y hk hy hh => ?_, g3⟩, dsame_struct (forall2_append g2 g4)⟩
      rw [child_key_map] at hy
      have hne : hmGet m k ≠ none := fun e => by rw [(hm k).1.1 e] at hy; cases hy
      obtain ⟨z, hz⟩ := Option.ne_none_iff_exists'.1 hne
      exact h2 k z hk (by rw [child_key_map]; exact hz) ((holds128_same ((hm k).2 z y hz hy)).2 hh)
    | buffered o =>
      obtain ⟨ds, ps, rfl, h1, h3⟩ := (flatten_stored_iff hf hp' hu).1 hd
      obtain ⟨ds', g1, g2⟩ := blind_fields (dec := fun f => f.reader.buffered o) hb hs hu hu' h1
      obtain ⟨ps', g3, g4⟩ := partsGet_blind hs hu hu' h3 hp
      exact ⟨_, (flatten_stored_iff hf hp' hu').2 ⟨ds', ps', rfl, g1, g3⟩, dsame_struct (forall2_append g2 g4)⟩
  | _ => cases how <;> cases hd

theorem same_empty {n : Entries} (hs : Same (.map []) (.map n)) : n = [] := by
  cases n with
  | nil => rfl
  | cons e r =>
    have := ((same_map.1 hs) e.1).1.1 rfl
    rw [hmGet_cons, if_pos rfl] at this
    cases this

theorem names_blind {owned : Bool} {vs : List AVariant} {x x' : Value} {va : AVariant} (hu' : UniqueKeys x') (hs : Same x x') (h : Names owned vs x va) :
    Names owned vs x' va := by
  obtain ⟨name, hf, hx⟩ := h
  refine ⟨name, hf, ?_⟩
  rcases hx with rfl | rfl | ⟨ho, rfl⟩
  · exact Or.inl (same_scalar rfl hs)
  · obtain ⟨n, rfl⟩ := same_map_left hs
    obtain ⟨y, rfl, hy⟩ := same_single hs (uniqueKeys_map.1 hu').1
    rw [same_scalar rfl hy]
    exact Or.inr (Or.inl rfl)
  · obtain ⟨n, rfl⟩ := same_map_left hs
    obtain ⟨y, rfl, hy⟩ := same_single hs (uniqueKeys_map.1 hu').1
    obtain ⟨n, rfl⟩ := same_map_left hy
    rw [same_empty hy]
    exact Or.inr (Or.inr ⟨ho, rfl⟩)

theorem adjIndex_scalar {vs : List AVariant} {x : Value} {va : AVariant} (h : adjIndex vs x = .ok va) : isScalar x = true := by
  cases x <;> first | rfl | cases h

theorem adjIndex_mem {vs : List AVariant} {x : Value} {va : AVariant} (h : adjIndex vs x = .ok va) : va ∈ vs := by
  cases x with
  | string s => exact List.mem_of_find?_eq_some (findAVariant_ok.1 h)
  | uInteger n =>
    simp only [adjIndex] at h
    split at h
    · rename_i va' hva
      cases h
      exact List.mem_of_getElem? hva
    · cases h
  | _ => cases h

/-- **C99**, adjacently tagged enums, where the contents read the same from an owned buffer and from this one (always, if this one is owned). -/
theorem C99_adjacent (owned : Bool) (tag content : String) (htc : tag ≠ content) (deny : Bool) (vs : List AVariant) (hs : ∀ va ∈ vs, ShapeFine va.variant.shape)
    (hb : ∀ va ∈ vs, ShapeBlind true va.variant.shape)
    (ha : ∀ va ∈ vs, ∀ y d, UniqueKeys y → (ContentReads owned va.variant y d ↔ ContentReads true va.variant y d)) :
    AnyOrder (readBy (Reader.adjacent tag content deny vs) (.buffered owned)) := by
  intro v v' d hu hu' hsame hd
  replace hd : (Reader.adjacent tag content deny vs).buffered owned v = .ok d := hd
  show ∃ d', (Reader.adjacent tag content deny vs).buffered owned v' = .ok d' ∧ DSame d d'
  have hcb : ∀ {va : AVariant}, va ∈ vs → ∀ {y y' : Value} {d : Data}, UniqueKeys y → UniqueKeys y' → Same y y' → ContentReads owned va.variant y d →
      ∃ d', ContentReads owned va.variant y' d' ∧ DSame d d' := by
    intro va hva y y' d u1 u2 s h
    obtain ⟨d', g1, g2⟩ := content_blind (hb va hva) u1 u2 s ((ha va hva y d u1).1 h)
    exact ⟨d', (ha va hva y' d' u2).2 g1, g2⟩
  cases v with
  | map m =>
    obtain ⟨n, rfl⟩ := same_map_left hsame
    have hm := same_map.1 hsame
    have get : ∀ {k x}, hmGet m k = some x → ∃ x', hmGet n k = some x' ∧ Same x x' ∧ UniqueKeys x ∧ UniqueKeys x' := by
      intro k x hx
      have hne : hmGet n k ≠ none := fun e => by rw [(hm k).1.2 e] at hx; cases hx
      obtain ⟨w, hw⟩ := Option.ne_none_iff_exists'.1 hne
      exact ⟨w, hw, (hm k).2 x w hx hw, (uniqueKeys_map.1 hu).2 _ (hmGet_mem hx), (uniqueKeys_map.1 hu').2 _ (hmGet_mem hw)⟩
    obtain ⟨h1, x, va, h2, h3, h4⟩ := (C97_inside tag content htc deny vs hs owned _ hu rfl d).1 hd
    rw [child_key_map] at h2
    have hva : va ∈ vs := by obtain ⟨_, h, _⟩ := h3; exact List.mem_of_find?_eq_some h
    obtain ⟨x', g1, g2, g3, g4⟩ := get h2
    have keys : deny = true → ∀ k x, child (.map n) (.key k) = some x → k = tag ∨ k = content := by
      intro hd k y hy
      rw [child_key_map] at hy
      have hne : hmGet m k ≠ none := fun e => by rw [(hm k).1.1 e] at hy; cases hy
      obtain ⟨z, hz⟩ := Option.ne_none_iff_exists'.1 hne
      exact h1 hd k z (by rw [child_key_map]; exact hz)
    rcases h4 with ⟨h4, h5⟩ | ⟨y, h4, h5⟩
    · rw [child_key_map] at h4
      exact ⟨d, (C97_inside tag content htc deny vs hs owned _ hu' rfl d).2 keys x' va (by rw [child_key_map]; exact g1) (names_blind g4 g2 h3)
        (Or.inl ⟨by rw [child_key_map]; exact (hm content).1.1 h4, h5⟩), DSame.refl d⟩
    · rw [child_key_map] at h4
      obtain ⟨y', f1, f2, f3, f4⟩ := get h4
      obtain ⟨d', e1, e2⟩ := hcb hva f3 f4 f2 (h5.elim id fun h => (ha va hva y d f3).2 h)
      exact ⟨d', (C97_inside tag content htc deny vs hs owned _ hu' rfl d').2 keys x' va (by rw [child_key_map]; exact g1) (names_blind g4 g2 h3)
        (Or.inr ⟨y', by rw [child_key_map]; exact f1, e1, (ha va hva y' d' f4).1 e1⟩), e2⟩
  | array xs =>
    obtain ⟨ws, rfl⟩ := same_array_left hsame
    match xs, hd, hsame, hu with
    | [x, y], hd, hsame, hu =>
      obtain ⟨x', ws', rfl, g1, g2⟩ := same_cons hsame
      obtain ⟨y', ws'', rfl, g3, g4⟩ := same_cons g2
      have : ws'' = [] := by
        rw [same_array] at g4
        exact List.length_eq_zero_iff.1 g4.1.symm
      subst this
      obtain ⟨va, h1, h2⟩ := bind_eq_ok.1 hd
      obtain ⟨d', h2, h3⟩ := bind_eq_ok.1 h2
      cases h3
      obtain ⟨u1, u2⟩ := unique_cons hu
      obtain ⟨u1', u2'⟩ := unique_cons hu'
      have hva := adjIndex_mem h1
      obtain ⟨e, e1, e2⟩ := hcb hva (unique_cons u2).1 (unique_cons u2').1 g3 ((adjContent_iff (hs va hva) (unique_cons u2).1).1 h2)
      rw [same_scalar (adjIndex_scalar h1) g1]
      exact ⟨e, bind_eq_ok.2 ⟨va, h1, bind_eq_ok.2 ⟨e, (adjContent_iff (hs va hva) (unique_cons u2').1).2 e1, rfl⟩⟩, e2⟩
    | [], hd, _, _ => cases hd
    | [x], hd, _, _ => obtain ⟨va, _, h2⟩ := bind_eq_ok.1 hd; cases h2
    | x :: y :: z :: r, hd, _, _ =>
      obtain ⟨va, _, h2⟩ := bind_eq_ok.1 hd
      obtain ⟨d', _, h3⟩ := bind_eq_ok.1 h2
      cases h3
  | _ => cases hd

/-- **C99**, adjacently tagged enums otherwise: the order matters. A variant of `()` with an empty map as content is refused from a borrowed buffer if the tag
comes first, and read if the content does. -/
theorem C99_adjacent_order (tag content : String) (htc : tag ≠ content) (deny : Bool) (name : String) (absent : Outcome ModelError Data) :
    ¬ AnyOrder (readBy (Reader.adjacent tag content deny [⟨⟨name, .newtype Reader.unit⟩, absent⟩]) (.buffered false)) := by
  intro hb
  have hct : content ≠ tag := Ne.symm htc
  have u1 : UniqueKeys (.map [(content, .map []), (tag, .string name)]) := by
    rw [uniqueKeys_map]; refine ⟨by simp [hct], ?_⟩; simp [UniqueKeys, UniqueKeysMap]
  have u2 : UniqueKeys (.map [(tag, .string name), (content, .map [])]) := by
    rw [uniqueKeys_map]; refine ⟨by simp [htc], ?_⟩; simp [UniqueKeys, UniqueKeysMap]
  have hsame : Same (.map [(content, .map []), (tag, .string name)]) (.map [(tag, .string name), (content, .map [])]) := by
    rw [same_map]
    intro k
    simp only [hmGet]
    by_cases h1 : content = k
    · subst h1; simp [htc, Same.refl]
    · by_cases h2 : tag = k
      · subst h2; simp [hct, Same.refl]
      · simp [h1, h2]
  have fa : findAVariant [⟨⟨name, .newtype Reader.unit⟩, absent⟩] name = .ok ⟨⟨name, .newtype Reader.unit⟩, absent⟩ := by
    rw [findAVariant_ok]; simp
  obtain ⟨d', h1, -⟩ := hb _ _ (.newtypeVariant name .unit) u1 u2 hsame (by
    show adjLoop _ _ _ _ _ _ _ _ _ = _
    rw [adjLoop_cons, if_neg hct, if_pos rfl]
    show adjLoop _ _ _ _ _ _ _ _ _ = _
    rw [adjLoop_cons, if_pos rfl]
    show (adjTag false _ (.string name) >>= _) = _
    rw [show adjTag false [⟨⟨name, .newtype Reader.unit⟩, absent⟩] (.string name) = .ok ⟨⟨name, .newtype Reader.unit⟩, absent⟩ from fa]
    rfl)
  revert h1
  show adjLoop _ _ _ _ _ _ _ _ _ = _ → False
  rw [adjLoop_cons, if_pos rfl]
  show (adjTag false _ (.string name) >>= _) = _ → False
  rw [show adjTag false [⟨⟨name, .newtype Reader.unit⟩, absent⟩] (.string name) = .ok ⟨⟨name, .newtype Reader.unit⟩, absent⟩ from fa]
  show adjLoop _ _ _ _ _ _ _ _ _ = _ → False
  rw [adjLoop_cons, if_neg hct, if_pos rfl]
  intro h
  cases h

/-- **C99**, both ways: values that are the same up to the order of their maps are both read or both not. -/
theorem C99_refused (dec : Decoder) (hb : AnyOrder dec) (v v' : Value) (hu : UniqueKeys v) (hu' : UniqueKeys v') (hs : Same v v') :
    (∃ d, dec v = .ok d) ↔ ∃ d, dec v' = .ok d :=
  ⟨fun ⟨d, h⟩ => (hb v v' d hu hu' hs h).imp fun _ h => h.1, fun ⟨d, h⟩ => (hb v' v d hu' hu (Same.symm hs) h).imp fun _ h => h.1⟩

/-- **C99**, with C98: what is kept when it is read as it was written is kept as well if, between writing and reading, the maps are reordered. -/
theorem C99_kept (how : How) (r : Reader) (hb : AnyOrder (readBy r how)) (c d : Data) (hk : Kept how r c d) (x v : Value) (hx : ser c = .ok x)
    (hu : UniqueKeys v) (hs : Same x v) : ∃ d', readBy r how v = .ok d' ∧ DSame d d' := by
  obtain ⟨x', h1, h2⟩ := hk
  rw [hx] at h1
  cases h1
  exact hb x v d (uniqueKeys_ser c x hx) hu hs h2

/-! ## Concrete cases -/

theorem exNet_blind (how : How) : ∀ f ∈ exNet, AnyOrder (readBy f.reader how) := by
  intro f hf
  simp only [exNet, List.mem_cons, List.not_mem_nil, or_false] at hf
  rcases hf with rfl | rfl
  · exact (C99_scalars how).2.1 .u16
  · exact (C99_containers how _ (C99_scalars how).1).1

/-- The app with a flattened `Net` and the rest. -/
theorem exApp_blind (how : How) : AnyOrder (readBy exApp how) := by
  refine C99_flatten how _ (by decide) ?_ _ ?_
  · intro f hf
    rw [List.mem_singleton] at hf
    subst hf
    exact (C99_scalars how).2.2.2.2.2.1
  · intro p hp
    simp only [List.mem_cons, List.not_mem_nil, or_false] at hp
    rcases hp with rfl | rfl
    · exact ⟨by decide, exNet_blind (.buffered true)⟩
    · exact (C99_scalars (.buffered false)).2.2.2.2.2.1

theorem exMode_fine : ∀ va ∈ exMode, ShapeFine va.shape := by
  intro va h
  simp only [exMode, List.mem_cons, List.not_mem_nil, or_false] at h
  rcases h with rfl | rfl
  · exact trivial
  · exact C91_enum.2.2.1.2.1 .u8

/-- The untagged and the tagged enum. -/
theorem exEither_blind (owned : Bool) : ∀ va ∈ exEither, ShapeBlind owned va.shape := by
  intro va hva
  have u8 : AnyOrder ((Reader.int .u8).buffered owned) := (C99_scalars (.buffered owned)).2.1 .u8
  simp only [exEither, List.mem_cons, List.not_mem_nil, or_false] at hva
  rcases hva with rfl | rfl | rfl
  · refine C99_enum (.buffered owned) exMode exMode_fine fun o ho va hva => ?_
    cases ho
    simp only [exMode, List.mem_cons, List.not_mem_nil, or_false] at hva
    rcases hva with rfl | rfl
    · exact trivial
    · exact u8
  · exact ⟨by decide, exNet_blind (.buffered owned)⟩
  · intro r hr
    simp only [List.mem_cons, List.not_mem_nil, or_false, or_self] at hr
    subst hr
    exact u8

example (how : How) : AnyOrder (readBy (Reader.untagged exEither) how) := C99_untagged how exEither exEither_fine (exEither_blind false)
example (how : How) : AnyOrder (readBy (Reader.tagged "kind" exEither) how) := C99_tagged how "kind" exEither exEither_fine (exEither_blind true)

/-- The hypotheses of `C91_tagged_within`: the second variant by its place, 1. -/
example : (Reader.tagged "kind" exEither).buffered true (.map [("port", .integer ⟨3, by decide⟩), ("kind", .uInteger ⟨1, by decide⟩)]) =
    .ok (.structVariant "Net" [("port", .int .u16 ⟨3, by decide⟩), ("debug", .none)]) :=
  (C91_tagged_within "kind" exEither exEither_fine true (.map [("port", .integer ⟨3, by decide⟩), ("kind", .uInteger ⟨1, by decide⟩)])
    (by simp [UniqueKeys, UniqueKeysMap, UniqueKeysEntry]) rfl _).2
    ⟨_, _, rfl, .place _ _ rfl, .struct exNet _ rfl (.map _ rfl (.cons ⟨rfl, by intro x hx; cases hx; rfl, by intro h; cases h⟩
      (.cons ⟨rfl, (fun x hx => (nomatch hx)), fun _ => rfl⟩ .nil)))⟩

/-- The adjacently tagged enum, from an owned buffer. -/
theorem exAuth_blind : ∀ va ∈ exAuth, ShapeBlind true va.variant.shape := by
  intro va h
  simp only [exAuth, List.mem_cons, List.not_mem_nil, or_false] at h
  rcases h with rfl | rfl | rfl | rfl
  · exact trivial
  · exact (C99_scalars (.buffered true)).2.2.2.2.2.1
  · intro r hr
    simp only [List.mem_cons, List.not_mem_nil, or_false, or_self] at hr
    subst hr
    exact (C99_scalars (.buffered true)).2.1 .u8
  · exact ⟨by decide, exNet_blind (.buffered true)⟩

example : AnyOrder (readBy (Reader.adjacent "type" "data" true exAuth) (.buffered true)) :=
  C99_adjacent true "type" "data" (by decide) true exAuth exAuth_fine exAuth_blind fun _ _ _ _ _ => Iff.rfl

/-- Two orders of the same entries, and what the app reads from each: the rest is in the order it was found. -/
theorem exTwo_same : Same (.map [("port", .integer ⟨80, by decide⟩), ("lang", .string "en"), ("name", .string "a"), ("zone", .string "z")])
    (.map [("zone", .string "z"), ("name", .string "a"), ("lang", .string "en"), ("port", .integer ⟨80, by decide⟩)]) := by
  rw [same_map]
  intro k
  simp only [hmGet]
  by_cases h1 : "port" = k
  · subst h1; simp [Same.refl]
  by_cases h2 : "lang" = k
  · subst h2; simp [Same.refl]
  by_cases h3 : "name" = k
  · subst h3; simp [Same.refl]
  by_cases h4 : "zone" = k
  · subst h4; simp [Same.refl]
  simp [h1, h2, h3, h4]

example : exApp.direct (.map [("port", .integer ⟨80, by decide⟩), ("lang", .string "en"), ("name", .string "a"), ("zone", .string "z")]) =
    .ok (.struct [("name", .str "a"), ("net", .struct [("port", .int .u16 ⟨80, by decide⟩), ("debug", .none)]),
      ("other", .map [(.str "lang", .str "en"), (.str "zone", .str "z")])]) := rfl
example : exApp.direct (.map [("zone", .string "z"), ("name", .string "a"), ("lang", .string "en"), ("port", .integer ⟨80, by decide⟩)]) =
    .ok (.struct [("name", .str "a"), ("net", .struct [("port", .int .u16 ⟨80, by decide⟩), ("debug", .none)]),
      ("other", .map [(.str "zone", .str "z"), (.str "lang", .str "en")])]) := rfl
example : ∃ d', readBy exApp .direct (.map [("zone", .string "z"), ("name", .string "a"), ("lang", .string "en"), ("port", .integer ⟨80, by decide⟩)]) = .ok d' ∧
    DSame (.struct [("name", .str "a"), ("net", .struct [("port", .int .u16 ⟨80, by decide⟩), ("debug", .none)]),
      ("other", .map [(.str "lang", .str "en"), (.str "zone", .str "z")])]) d' :=
  exApp_blind .direct _ _ _ (by simp [UniqueKeys, UniqueKeysMap, UniqueKeysEntry]) (by simp [UniqueKeys, UniqueKeysMap, UniqueKeysEntry]) exTwo_same rfl

end Verif.Props
