import Verif.Spec.Adjacent
import Verif.Props.Buffer
import Verif.Props.EndToEnd
/-!
# Adjacently tagged enums (C97)
-/
namespace Verif.Props
open Spec

theorem adjLoop_cons (tag content : String) (deny : Bool) (ident : Value → Outcome ModelError AVariant) (store : Value → Outcome ModelError Value)
    (seed : AVariant → Decoder) (skip : Value → Outcome ModelError Unit) (st : AdjState) (k : String) (x : Value) (r : List (String × Value)) :
    adjLoop tag content deny ident store seed skip st ((k, x) :: r) =
      if k = tag then
        match st with
        | .start => ident x >>= fun va => adjLoop tag content deny ident store seed skip (.tagged va) r
        | .held c => ident x >>= fun va => adjContent true va.variant c >>= fun d => adjLoop tag content deny ident store seed skip (.done d) r
        | .tagged _ => .err (.deserializationError ("duplicate field `" ++ tag ++ "`"))
        | .done _ => .err (.deserializationError ("duplicate field `" ++ tag ++ "`"))
      else if k = content then
        match st with
        | .start => store x >>= fun c => adjLoop tag content deny ident store seed skip (.held c) r
        | .tagged va => seed va x >>= fun d => adjLoop tag content deny ident store seed skip (.done d) r
        | .held _ => .err (.deserializationError ("duplicate field `" ++ content ++ "`"))
        | .done _ => .err (.deserializationError ("duplicate field `" ++ content ++ "`"))
      else if deny then .err (.deserializationError "invalid value: expected tag or content")
      else skip x >>= fun _ => adjLoop tag content deny ident store seed skip st r := by
  cases st <;> rfl

/-! ## Read directly -/

theorem adjLoop_not_ok (tag content : String) (deny : Bool) (store : Value → Outcome ModelError Value) (seed : AVariant → Decoder)
    (skip : Value → Outcome ModelError Unit) (m : List (String × Value)) : ∀ (st : AdjState), (st = .start ∨ ∃ c, st = .held c) → ∀ d,
    adjLoop tag content deny (fun _ => .panic) store seed skip st m ≠ .ok d := by
  induction m with
  | nil => rintro st (rfl | ⟨c, rfl⟩) d h <;> cases h
  | cons e r ih =>
    obtain ⟨k, x⟩ := e
    intro st hst d h
    rw [adjLoop_cons] at h
    split at h
    · rcases hst with rfl | ⟨c, rfl⟩ <;> cases h
    · split at h
      · rcases hst with rfl | ⟨c, rfl⟩
        · obtain ⟨c, -, h⟩ := bind_eq_ok.1 h
          exact ih _ (Or.inr ⟨c, rfl⟩) d h
        · cases h
      · split at h
        · cases h
        · obtain ⟨u, -, h⟩ := bind_eq_ok.1 h
          exact ih st hst d h

theorem adjLoop_no_tag (tag content : String) (deny : Bool) (seed : AVariant → Decoder) (m : List (String × Value)) (hm : ∀ e ∈ m, UniqueKeys e.2)
    (ht : tag ∉ m.map Prod.fst) : ∀ (st : AdjState), (st = .start ∨ ∃ c, st = .held c) →
    ∃ e, adjLoop tag content deny (fun _ => .panic) buffer seed deIgnored st m = .err e := by
  induction m with
  | nil => rintro st (rfl | ⟨c, rfl⟩) <;> exact ⟨_, rfl⟩
  | cons e r ih =>
    obtain ⟨k, x⟩ := e
    intro st hst
    simp only [List.map_cons, List.mem_cons, not_or] at ht
    have ih := ih (fun e he => hm e (by simp [he])) ht.2
    rw [adjLoop_cons, if_neg (Ne.symm ht.1)]
    split
    · rcases hst with rfl | ⟨c, rfl⟩
      · by_cases hx : Holds128 x
        · obtain ⟨e, he⟩ := (C91_buffer x (hm _ (List.mem_cons_self))).2 hx
          exact ⟨e, by dsimp only; rw [he]; rfl⟩
        · dsimp only
          rw [(C91_buffer x (hm _ (List.mem_cons_self))).1 hx]
          exact ih _ (Or.inr ⟨x, rfl⟩)
      · exact ⟨_, rfl⟩
    · split
      · exact ⟨_, rfl⟩
      · rw [deIgnored_ok]
        exact ih st hst

theorem adjLoop_panics (tag content : String) (deny : Bool) (seed : AVariant → Decoder) (m : List (String × Value)) (hm : ∀ e ∈ m, UniqueKeys e.2)
    (hn : (m.map Prod.fst).Nodup) (ht : tag ∈ m.map Prod.fst) (hk : deny = true → ∀ e ∈ m, e.1 = tag ∨ e.1 = content) :
    ∀ (st : AdjState), (st = .start ∧ (∀ y, (content, y) ∈ m → ¬ Holds128 y)) ∨ (∃ c, st = .held c ∧ content ∉ m.map Prod.fst) →
    adjLoop tag content deny (fun _ => .panic) buffer seed deIgnored st m = .panic := by
  induction m with
  | nil => cases ht
  | cons e r ih =>
    obtain ⟨k, x⟩ := e
    intro st hst
    rw [List.map_cons, List.nodup_cons] at hn
    have ih := ih (fun e he => hm e (by simp [he])) hn.2
    rw [adjLoop_cons]
    split
    · rcases hst with ⟨rfl, -⟩ | ⟨c, rfl, -⟩ <;> rfl
    · rename_i hkt
      have ht' : tag ∈ r.map Prod.fst := by
        rw [List.map_cons, List.mem_cons] at ht
        exact ht.resolve_left (fun h => hkt h.symm)
      have ih := ih ht' (fun hd e he => hk hd e (by simp [he]))
      split
      · rename_i hkc
        subst hkc
        rcases hst with ⟨rfl, h⟩ | ⟨c, rfl, h⟩
        · dsimp only
          rw [(C91_buffer x (hm _ (List.mem_cons_self))).1 (h x (by simp))]
          exact ih _ (Or.inr ⟨x, rfl, hn.1⟩)
        · exact absurd (by simp) h
      · rename_i hkc
        split
        · rename_i hd
          rcases hk hd _ (List.mem_cons_self) with h | h
          · exact absurd h hkt
          · exact absurd h hkc
        · rw [deIgnored_ok]
          refine ih st ?_
          rcases hst with ⟨rfl, h⟩ | ⟨c, rfl, h⟩
          · exact Or.inl ⟨rfl, fun y hy => h y (by simp [hy])⟩
          · exact Or.inr ⟨c, rfl, fun h' => h (by simp at h' ⊢; exact Or.inr h')⟩

/-- **C97.** An adjacently tagged enum is never read from a value: without its tag (or if the value is no map) there is an error, and if the tag is there, the
program panics (unless an unknown entry is denied, or a 128-bit integer in the content is met first, which is an error). -/
theorem C97_direct (tag content : String) (deny : Bool) (vs : List AVariant) (v : Value) (hu : UniqueKeys v) :
    (∀ d, (Reader.adjacent tag content deny vs).direct v ≠ .ok d) ∧
    (child v (.key tag) = none → ∃ e, (Reader.adjacent tag content deny vs).direct v = .err e) ∧
    (child v (.key tag) ≠ none → (∀ y, child v (.key content) = some y → ¬ Holds128 y) →
      (deny = true → ∀ k x, child v (.key k) = some x → k = tag ∨ k = content) →
      (Reader.adjacent tag content deny vs).direct v = .panic) := by
  cases v with
  | map m =>
    obtain ⟨hn, hm⟩ := uniqueKeys_map.1 hu
    simp only [child_key_map]
    refine ⟨fun d => adjLoop_not_ok _ _ _ _ _ _ m .start (Or.inl rfl) d, fun h => ?_, fun h1 h2 h3 => ?_⟩
    · exact adjLoop_no_tag _ _ _ _ m hm (hmGet_eq_none.1 h) .start (Or.inl rfl)
    · refine adjLoop_panics _ _ _ _ m hm hn (by rw [← hmGet_isSome]; exact Option.isSome_iff_ne_none.2 h1) (fun hd e he => ?_) .start (Or.inl ⟨rfl, fun y hy => ?_⟩)
      · exact h3 hd e.1 e.2 (hmGet_of_mem hn he)
      · exact h2 y (hmGet_of_mem hn hy)
  | _ =>
    refine ⟨fun d h => (by cases h), fun _ => ⟨_, rfl⟩, fun h => ?_⟩
    exact absurd rfl h

/-! ## Read from a buffer -/

/-- Unknown keys are allowed or absent. -/
def KeysFine (tag content : String) (deny : Bool) (m : List (String × Value)) : Prop :=
  deny = true → ∀ k, hmGet m k ≠ none → k = tag ∨ k = content

theorem keysFine_cons {tag content : String} {deny : Bool} {k : String} {x : Value} {r : List (String × Value)} :
    KeysFine tag content deny ((k, x) :: r) ↔ (deny = true → k = tag ∨ k = content) ∧ KeysFine tag content deny r := by
  unfold KeysFine
  constructor
  · intro h
    refine ⟨fun hd => h hd k (by simp [hmGet]), fun hd q hq => h hd q ?_⟩
    rw [hmGet]; split
    · simp
    · exact hq
  · rintro ⟨h1, h2⟩ hd q hq
    rw [hmGet] at hq
    split at hq
    · rename_i e; subst e; exact h1 hd
    · exact h2 hd q hq

section
variable {tag content : String} {deny : Bool} {ident : Value → Outcome ModelError AVariant} {seed : AVariant → Decoder}

theorem adjLoop_done (m : List (String × Value)) (d d' : Data) :
    adjLoop tag content deny ident .ok seed (fun _ => .ok ()) (.done d) m = .ok d' ↔
      d' = d ∧ hmGet m tag = none ∧ hmGet m content = none ∧ KeysFine tag content deny m := by
  induction m with
  | nil => simp [adjLoop, hmGet, KeysFine, eq_comm]
  | cons e r ih =>
    obtain ⟨k, x⟩ := e
    rw [adjLoop_cons, keysFine_cons, hmGet, hmGet]
    by_cases h1 : k = tag
    · simp [h1]
    · by_cases h2 : k = content
      · subst h2; simp [h1]
      · cases deny with
        | true => simp [h1, h2]
        | false =>
          simp only [h1, h2, if_false, Bool.false_eq_true]
          show adjLoop _ _ _ _ _ _ _ _ _ = _ ↔ _
          rw [ih]; simp

theorem adjLoop_tagged (m : List (String × Value)) (hn : (m.map Prod.fst).Nodup) (htc : tag ≠ content) (va : AVariant) (d' : Data) :
    adjLoop tag content deny ident .ok seed (fun _ => .ok ()) (.tagged va) m = .ok d' ↔
      hmGet m tag = none ∧ KeysFine tag content deny m ∧
      ((hmGet m content = none ∧ adjAbsent content va = .ok d') ∨ ∃ y, hmGet m content = some y ∧ seed va y = .ok d') := by
  induction m with
  | nil => simp [adjLoop, hmGet, KeysFine]
  | cons e r ih =>
    obtain ⟨k, x⟩ := e
    rw [List.map_cons, List.nodup_cons] at hn
    rw [adjLoop_cons, keysFine_cons, hmGet, hmGet]
    by_cases h1 : k = tag
    · simp [h1]
    · by_cases h2 : k = content
      · subst h2
        have hk : hmGet r k = none := hmGet_eq_none.2 hn.1
        simp only [h1, if_false, if_true, bind_eq_ok]
        constructor
        · rintro ⟨d, g1, g2⟩
          obtain ⟨rfl, g3, -, g4⟩ := (adjLoop_done r d d').1 g2
          exact ⟨g3, ⟨fun _ => Or.inr (by trivial), g4⟩, Or.inr ⟨x, rfl, g1⟩⟩
        · rintro ⟨g1, ⟨-, g2⟩, ⟨g3, -⟩ | ⟨y, g3, g4⟩⟩
          · cases g3
          · cases g3
            exact ⟨d', g4, (adjLoop_done r d' d').2 ⟨rfl, g1, hk, g2⟩⟩
      · cases deny with
        | true => simp [h1, h2]
        | false =>
          simp only [h1, h2, if_false, Bool.false_eq_true]
          show adjLoop _ _ _ _ _ _ _ _ _ = _ ↔ _
          rw [ih hn.2]; simp

theorem adjLoop_held (m : List (String × Value)) (hn : (m.map Prod.fst).Nodup) (htc : tag ≠ content) (c : Value) (d' : Data) :
    adjLoop tag content deny ident .ok seed (fun _ => .ok ()) (.held c) m = .ok d' ↔
      hmGet m content = none ∧ KeysFine tag content deny m ∧
      ∃ x va, hmGet m tag = some x ∧ ident x = .ok va ∧ adjContent true va.variant c = .ok d' := by
  induction m with
  | nil => simp [adjLoop, hmGet]
  | cons e r ih =>
    obtain ⟨k, x⟩ := e
    rw [List.map_cons, List.nodup_cons] at hn
    rw [adjLoop_cons, keysFine_cons, hmGet, hmGet]
    by_cases h1 : k = tag
    · subst h1
      have hk : hmGet r k = none := hmGet_eq_none.2 hn.1
      simp only [htc, if_false, if_true, bind_eq_ok]
      constructor
      · rintro ⟨va, g0, d, g1, g2⟩
        obtain ⟨rfl, -, g3, g4⟩ := (adjLoop_done r d d').1 g2
        exact ⟨g3, ⟨fun _ => Or.inl (by trivial), g4⟩, x, va, rfl, g0, g1⟩
      · rintro ⟨g1, ⟨-, g2⟩, y, va, g3, g4, g5⟩
        cases g3
        exact ⟨va, g4, d', g5, (adjLoop_done r d' d').2 ⟨rfl, hk, g1, g2⟩⟩
    · by_cases h2 : k = content
      · simp [h1, h2, Ne.symm htc]
      · cases deny with
        | true => simp [h1, h2]
        | false =>
          simp only [h1, h2, if_false, Bool.false_eq_true]
          show adjLoop _ _ _ _ _ _ _ _ _ = _ ↔ _
          rw [ih hn.2]; simp

theorem adjLoop_start (m : List (String × Value)) (hn : (m.map Prod.fst).Nodup) (htc : tag ≠ content) (d' : Data) :
    adjLoop tag content deny ident .ok seed (fun _ => .ok ()) .start m = .ok d' ↔
      KeysFine tag content deny m ∧ ∃ x va, hmGet m tag = some x ∧ ident x = .ok va ∧
        ((hmGet m content = none ∧ adjAbsent content va = .ok d') ∨
          ∃ y, hmGet m content = some y ∧
            (((m.map Prod.fst).idxOf tag < (m.map Prod.fst).idxOf content ∧ seed va y = .ok d') ∨
             ((m.map Prod.fst).idxOf content < (m.map Prod.fst).idxOf tag ∧ adjContent true va.variant y = .ok d'))) := by
  induction m with
  | nil => simp [adjLoop, hmGet]
  | cons e r ih =>
    obtain ⟨k, x⟩ := e
    rw [List.map_cons, List.nodup_cons] at hn
    rw [adjLoop_cons, keysFine_cons, hmGet, hmGet, List.map_cons]
    by_cases h1 : k = tag
    · subst h1
      have hk : hmGet r k = none := hmGet_eq_none.2 hn.1
      have e1 : (k :: r.map Prod.fst).idxOf k = 0 := List.idxOf_cons_self
      have e2 : (k :: r.map Prod.fst).idxOf content = (r.map Prod.fst).idxOf content + 1 := List.idxOf_cons_ne _ htc
      simp only [htc, if_false, if_true, bind_eq_ok, e1, e2, adjLoop_tagged r hn.2 htc]
      constructor
      · rintro ⟨va, g0, -, g1, g2⟩
        refine ⟨⟨fun _ => Or.inl (by trivial), g1⟩, x, va, rfl, g0, ?_⟩
        rcases g2 with g2 | ⟨y, g2, g3⟩
        · exact Or.inl g2
        · exact Or.inr ⟨y, g2, Or.inl ⟨by omega, g3⟩⟩
      · rintro ⟨⟨-, g1⟩, y, va, g3, g4, g5⟩
        cases g3
        refine ⟨va, g4, hk, g1, ?_⟩
        rcases g5 with g5 | ⟨y, g5, ⟨-, g6⟩ | ⟨g6, -⟩⟩
        · exact Or.inl g5
        · exact Or.inr ⟨y, g5, g6⟩
        · omega
    · by_cases h2 : k = content
      · subst h2
        have hk : hmGet r k = none := hmGet_eq_none.2 hn.1
        have e1 : (k :: r.map Prod.fst).idxOf k = 0 := List.idxOf_cons_self
        have e2 : (k :: r.map Prod.fst).idxOf tag = (r.map Prod.fst).idxOf tag + 1 := List.idxOf_cons_ne _ h1
        simp only [h1, if_false, if_true, e1, e2]
        show adjLoop _ _ _ _ _ _ _ _ _ = _ ↔ _
        rw [adjLoop_held r hn.2 htc]
        constructor
        · rintro ⟨-, g1, y, va, g2, g3, g4⟩
          exact ⟨⟨fun _ => Or.inr (by trivial), g1⟩, y, va, g2, g3, Or.inr ⟨x, rfl, Or.inr ⟨by omega, g4⟩⟩⟩
        · rintro ⟨⟨-, g1⟩, y, va, g2, g3, ⟨g4, -⟩ | ⟨z, g4, ⟨g5, -⟩ | ⟨-, g5⟩⟩⟩
          · cases g4
          · omega
          · cases g4
            exact ⟨hk, g1, y, va, g2, g3, g5⟩
      · have e1 : (k :: r.map Prod.fst).idxOf tag = (r.map Prod.fst).idxOf tag + 1 := List.idxOf_cons_ne _ h1
        have e2 : (k :: r.map Prod.fst).idxOf content = (r.map Prod.fst).idxOf content + 1 := List.idxOf_cons_ne _ h2
        cases deny with
        | true => simp [h1, h2]
        | false =>
          simp only [h1, h2, if_false, Bool.false_eq_true, e1, e2, Nat.add_lt_add_iff_right]
          show adjLoop _ _ _ _ _ _ _ _ _ = _ ↔ _
          rw [ih hn.2]; simp
end

theorem adjContent_iff {owned : Bool} {va : Variant} (hs : ShapeFine va.shape) {v : Value} (hu : UniqueKeys v) {d : Data} :
    adjContent owned va v = .ok d ↔ ContentReads owned va v d := by
  unfold adjContent
  cases hsh : va.shape with
  | unit =>
    constructor
    · intro h
      cases v with
      | none => cases h; exact .unit hsh rfl
      | _ => cases h
    · intro h
      cases h with
      | unit _ hv => subst hv; rfl
      | _ => simp_all
  | newtype r =>
    simp only [bind_eq_ok]
    constructor
    · rintro ⟨x, h1, h2⟩; cases h2; exact .newtype r x hsh h1
    · intro h
      cases h with
      | newtype r' x hs' h => rw [hsh] at hs'; cases hs'; exact ⟨x, h, rfl⟩
      | _ => simp_all
  | tuple rs =>
    constructor
    · intro h
      cases v with
      | array xs =>
        obtain ⟨ds, h1, h2⟩ := bind_eq_ok.1 h
        cases h2
        exact .tuple rs xs ds hsh rfl (eachReads_iff.1 h1)
      | _ => cases h
    · intro h
      cases h with
      | tuple rs' xs ds hs' hv h =>
        rw [hsh] at hs'; cases hs'; subst hv
        exact bind_eq_ok.2 ⟨ds, eachReads_iff.2 h, rfl⟩
      | _ => simp_all
  | struct fs =>
    rw [hsh] at hs
    simp only [bind_eq_ok]
    constructor
    · rintro ⟨ds, h1, h2⟩; cases h2; exact .struct fs ds hsh ((fieldsRead_iff hs.1 hu).1 h1)
    · intro h
      cases h with
      | struct fs' ds hs' h => rw [hsh] at hs'; cases hs'; exact ⟨ds, (fieldsRead_iff hs.1 hu).2 h, rfl⟩
      | _ => simp_all

theorem adjAbsent_iff {content : String} {va : AVariant} {d : Data} : adjAbsent content va = .ok d ↔ WithoutContent va d := by
  unfold adjAbsent
  cases hsh : va.variant.shape with
  | unit =>
    constructor
    · intro h; cases h; exact .unit hsh
    · intro h
      cases h with
      | unit _ => rfl
      | newtype _ _ hs _ => rw [hsh] at hs; cases hs
  | newtype r =>
    simp only [bind_eq_ok]
    constructor
    · rintro ⟨x, h1, h2⟩; cases h2; exact .newtype r x hsh h1
    · intro h
      cases h with
      | newtype r' x hs' h => exact ⟨x, h, rfl⟩
      | unit hs => rw [hsh] at hs; cases hs
  | tuple rs =>
    refine ⟨fun h => (by cases h), fun h => ?_⟩
    cases h <;> simp_all
  | struct fs =>
    refine ⟨fun h => (by cases h), fun h => ?_⟩
    cases h <;> simp_all

theorem findAVariant_ok {vs : List AVariant} {n : String} {va : AVariant} :
    findAVariant vs n = .ok va ↔ vs.find? (fun a => a.variant.name == n) = some va := by
  unfold findAVariant
  cases vs.find? (fun a => a.variant.name == n) <;> simp

theorem unit_buffered {owned : Bool} {v : Value} {d : Data} :
    Reader.unit.buffered owned v = .ok d ↔ d = .unit ∧ (v = .none ∨ owned = true ∧ v = .map []) := by
  unfold Reader.unit
  cases v with
  | none => simp [eq_comm]
  | map m => cases m <;> cases owned <;> simp [badContent, eq_comm]
  | _ => simp [badContent]

theorem adjTag_iff {owned : Bool} {vs : List AVariant} {x : Value} {va : AVariant} : adjTag owned vs x = .ok va ↔ Names owned vs x va := by
  unfold Names
  constructor
  · intro h
    unfold adjTag at h
    split at h
    · rename_i s
      exact ⟨s, findAVariant_ok.1 h, Or.inl rfl⟩
    · rename_i k y
      obtain ⟨va', h1, h2⟩ := bind_eq_ok.1 h
      obtain ⟨d, h3, h4⟩ := bind_eq_ok.1 h2
      cases h4
      refine ⟨k, findAVariant_ok.1 h1, Or.inr ?_⟩
      rcases (unit_buffered.1 h3).2 with rfl | ⟨ho, rfl⟩
      · exact Or.inl rfl
      · exact Or.inr ⟨ho, rfl⟩
    · cases h
  · rintro ⟨name, h, rfl | rfl | ⟨rfl, rfl⟩⟩
    · exact findAVariant_ok.2 h
    · exact bind_eq_ok.2 ⟨va, findAVariant_ok.2 h, bind_eq_ok.2 ⟨.unit, unit_buffered.2 ⟨rfl, Or.inl rfl⟩, rfl⟩⟩
    · exact bind_eq_ok.2 ⟨va, findAVariant_ok.2 h, bind_eq_ok.2 ⟨.unit, unit_buffered.2 ⟨rfl, Or.inr ⟨rfl, rfl⟩⟩, rfl⟩⟩

/-- **C97.** Inside a type that serde buffers, the same enum is read: as the variant the tag names, from the content, or without content if the variant can do
without; entries under other keys do not matter (unless they are denied). Where the content's type reads the same from an owned and a borrowed buffer, the
order of the entries does not matter either. -/
theorem C97_inside (tag content : String) (htc : tag ≠ content) (deny : Bool) (vs : List AVariant) (hs : ∀ va ∈ vs, ShapeFine va.variant.shape) (owned : Bool)
    (v : Value) (hu : UniqueKeys v) (hm : v.isMap = true) (d : Data) :
    ((Reader.adjacent tag content deny vs).buffered owned v = .ok d →
      (deny = true → ∀ k x, child v (.key k) = some x → k = tag ∨ k = content) ∧ ∃ x va, child v (.key tag) = some x ∧ Names owned vs x va ∧
        ((child v (.key content) = none ∧ WithoutContent va d) ∨
          ∃ y, child v (.key content) = some y ∧ (ContentReads owned va.variant y d ∨ ContentReads true va.variant y d))) ∧
    ((deny = true → ∀ k x, child v (.key k) = some x → k = tag ∨ k = content) →
      ∀ x va, child v (.key tag) = some x → Names owned vs x va →
        ((child v (.key content) = none ∧ WithoutContent va d) ∨
          ∃ y, child v (.key content) = some y ∧ ContentReads owned va.variant y d ∧ ContentReads true va.variant y d) →
      (Reader.adjacent tag content deny vs).buffered owned v = .ok d) := by
  cases v with
  | map m =>
    obtain ⟨hn, hme⟩ := uniqueKeys_map.1 hu
    have hloop := adjLoop_start (tag := tag) (content := content) (deny := deny) (ident := adjTag owned vs)
      (seed := fun va => adjContent owned va.variant) m hn htc d
    have hmem : ∀ {x va}, Names owned vs x va → va ∈ vs := fun ⟨n, h, _⟩ => List.mem_of_find?_eq_some h
    have hfine : KeysFine tag content deny m ↔ (deny = true → ∀ k x, child (.map m) (.key k) = some x → k = tag ∨ k = content) := by
      unfold KeysFine
      simp only [child_key_map]
      constructor
      · intro h hd k x hk; exact h hd k (by rw [hk]; simp)
      · intro h hd k hk
        obtain ⟨x, hx⟩ := Option.ne_none_iff_exists'.1 hk
        exact h hd k x hx
    constructor
    · intro h
      obtain ⟨g1, x, va, g2, g3, g4⟩ := hloop.1 h
      rw [adjTag_iff] at g3
      refine ⟨hfine.1 g1, x, va, by rw [child_key_map]; exact g2, g3, ?_⟩
      rw [child_key_map]
      rcases g4 with ⟨g4, g5⟩ | ⟨y, g4, g5⟩
      · exact Or.inl ⟨g4, adjAbsent_iff.1 g5⟩
      · have hy := hme _ (hmGet_mem g4)
        refine Or.inr ⟨y, g4, ?_⟩
        rcases g5 with ⟨-, g5⟩ | ⟨-, g5⟩
        · exact Or.inl ((adjContent_iff (hs va (hmem g3)) hy).1 g5)
        · exact Or.inr ((adjContent_iff (hs va (hmem g3)) hy).1 g5)
    · intro g1 x va g2 g3 g4
      rw [child_key_map] at g2
      refine hloop.2 ⟨hfine.2 g1, x, va, g2, adjTag_iff.2 g3, ?_⟩
      rw [child_key_map] at g4
      rcases g4 with ⟨g4, g5⟩ | ⟨y, g4, g5, g6⟩
      · exact Or.inl ⟨g4, adjAbsent_iff.2 g5⟩
      · have hy := hme _ (hmGet_mem g4)
        refine Or.inr ⟨y, g4, ?_⟩
        rw [adjContent_iff (hs va (hmem g3)) hy, adjContent_iff (hs va (hmem g3)) hy]
        have hne : (m.map Prod.fst).idxOf tag ≠ (m.map Prod.fst).idxOf content := by
          intro e
          have h1 : tag ∈ m.map Prod.fst := hmGet_isSome.1 (by rw [g2]; rfl)
          exact htc ((List.idxOf_inj h1).1 e)
        rcases Nat.lt_or_gt_of_ne hne with h | h
        · exact Or.inl ⟨h, g5⟩
        · exact Or.inr ⟨h, g6⟩
  | _ => cases hm

/-! ## Written and read -/

theorem no128_of_head {v : Value} (h1 : ∀ s, child v s = none) (h2 : ∀ n, v ≠ .longInteger n) (h3 : ∀ n, v ≠ .uLongInteger n) : No128 v := by
  intro p
  cases p with
  | nil =>
    constructor <;> intro n h
    · cases v <;> simp [view, head] at h
      exact h2 _ rfl
    · cases v <;> simp [view, head] at h
      exact h3 _ rfl
  | cons s p => simp [view, h1]

theorem no128_ser (d : Data) : ∀ v, ser d = .ok v → No128 v := by
  have scal : ∀ {v : Value}, (match v with | .array _ => False | .map _ => False | .longInteger _ => False | .uLongInteger _ => False | _ => True) → No128 v := by
    intro v h
    cases v <;> first | exact h.elim | (exact no128_of_head (fun s => by cases s <;> rfl) (fun n h => by cases h) (fun n h => by cases h))
  have arr : ∀ {ds : List Data} {vs : List Value}, (∀ d ∈ ds, ∀ v, ser d = .ok v → No128 v) →
      List.Forall₂ (fun d x => ser d = .ok x) ds vs → No128 (.array vs) := by
    intro ds vs ih h
    rw [no128_array]
    intro v hv
    obtain ⟨d, hd, h1⟩ := forall2_right h v hv
    exact ih d hd v h1
  have flds : ∀ {fs : List (String × Data)} {kvs : Entries}, (∀ f ∈ fs, ∀ v, ser f.2 = .ok v → No128 v) →
      List.Forall₂ (fun f kv => kv.1 = f.1 ∧ ser f.2 = .ok kv.2) fs kvs → No128 (.map (insAll [] kvs)) := by
    intro fs kvs ih h
    rw [no128_map (nodup_insAll kvs [] (by simp))]
    intro e he
    rcases mem_insAll kvs [] e he with h1 | h1
    · simp at h1
    · obtain ⟨f, hf, _, h2⟩ := forall2_right h e h1
      exact ih f hf _ h2
  have one : ∀ {k : String} {v : Value}, No128 v → No128 (.map [(k, v)]) := by
    intro k v h
    rw [no128_map (by simp)]
    simpa using h
  induction d using Data.ind with
  | int t n => intro v h; cases t <;> simp only [ser, reduceCtorEq, Outcome.ok.injEq] at h <;> subst h <;> exact scal trivial
  | bytes bs =>
    intro v h
    rw [ser, show Value.newArray = .array [] from rfl, serBytes_ok] at h
    cases h
    rw [no128_array]
    intro x hx
    simp only [List.nil_append, List.mem_map] at hx
    obtain ⟨b, _, rfl⟩ := hx
    exact scal trivial
  | some d ih => intro v h; rw [ser] at h; exact ih v h
  | newtypeStruct d ih => intro v h; rw [ser] at h; exact ih v h
  | newtypeVariant w d ih => intro v h; obtain ⟨x, h1, rfl⟩ := ser_newtypeVariant.1 h; exact one (ih x h1)
  | seq ds ih => intro v h; obtain ⟨vs, h1, rfl⟩ := ser_seq.1 h; exact arr ih h1
  | tuple ds ih => intro v h; obtain ⟨vs, h1, rfl⟩ := ser_tuple.1 h; exact arr ih h1
  | tupleStruct ds ih => intro v h; obtain ⟨vs, h1, rfl⟩ := ser_tupleStruct.1 h; exact arr ih h1
  | tupleVariant w ds ih => intro v h; obtain ⟨vs, h1, rfl⟩ := ser_tupleVariant.1 h; exact one (arr ih h1)
  | struct fs ih => intro v h; obtain ⟨kvs, h1, rfl⟩ := ser_struct.1 h; exact flds ih h1
  | structVariant w fs ih => intro v h; obtain ⟨kvs, h1, rfl⟩ := ser_structVariant.1 h; exact one (flds ih h1)
  | map es ih =>
    intro v h
    obtain ⟨kvs, h1, rfl⟩ := ser_map.1 h
    rw [no128_map (nodup_insAll kvs [] (by simp))]
    intro e he
    rcases mem_insAll kvs [] e he with h2 | h2
    · simp at h2
    · obtain ⟨f, hf, _, h3⟩ := forall2_right h1 e h2
      exact (ih f hf).2 _ h3
  | _ => intro v h; rw [ser] at h; cases h; exact scal trivial

theorem adjIndex_iff {vs : List AVariant} {x : Value} {va : AVariant} : adjIndex vs x = .ok va ↔ Numbers vs x va := by
  unfold Numbers
  constructor
  · intro h
    unfold adjIndex at h
    split at h
    · exact Or.inl ⟨_, rfl, findAVariant_ok.1 h⟩
    · rename_i n
      refine Or.inr ?_
      cases hg : vs[n.1.toNat]? with
      | none => rw [hg] at h; cases h
      | some v =>
        rw [hg] at h; cases h
        obtain ⟨hl, hv⟩ := List.getElem?_eq_some_iff.1 hg
        refine ⟨vs.take n.1.toNat, vs.drop (n.1.toNat + 1), ?_, n, rfl, ?_⟩
        · rw [← hv, List.getElem_cons_drop, List.take_append_drop]
        · rw [List.length_take, Nat.min_eq_left (Nat.le_of_lt hl)]
          exact (Int.toNat_of_nonneg n.2.1).symm
    · cases h
  · rintro (⟨name, rfl, h⟩ | ⟨before, after, rfl, n, rfl, h⟩)
    · exact findAVariant_ok.2 h
    · unfold adjIndex
      have : n.1.toNat = before.length := by omega
      simp [this]

/-- **C97.** Inside a buffer the enum is also read from a list of exactly two elements, the variant's name or number and the content, and from nothing else. -/
theorem C97_list (tag content : String) (deny : Bool) (vs : List AVariant) (hs : ∀ va ∈ vs, ShapeFine va.variant.shape) (owned : Bool)
    (v : Value) (hu : UniqueKeys v) (hm : v.isMap = false) (d : Data) :
    (Reader.adjacent tag content deny vs).buffered owned v = .ok d ↔
      ∃ x y va, v = .array [x, y] ∧ Numbers vs x va ∧ ContentReads owned va.variant y d := by
  have hmem : ∀ {x va}, Numbers vs x va → va ∈ vs := by
    rintro x va (⟨n, -, h⟩ | ⟨a, b, rfl, -⟩)
    · exact List.mem_of_find?_eq_some h
    · simp
  constructor
  · intro h
    cases v with
    | map m => cases hm
    | array xs =>
      match xs, h, hu with
      | [], h, _ => cases h
      | [x], h, _ => obtain ⟨va, -, h⟩ := bind_eq_ok.1 h; cases h
      | x :: y :: r, h, hu =>
        obtain ⟨va, h1, h⟩ := bind_eq_ok.1 h
        obtain ⟨d', h2, h⟩ := bind_eq_ok.1 h
        cases r with
        | cons => cases h
        | nil =>
          cases h
          have h1 := adjIndex_iff.1 h1
          exact ⟨x, y, va, rfl, h1, (adjContent_iff (hs va (hmem h1)) (by simp [UniqueKeys, UniqueKeysList] at hu; exact hu.2)).1 h2⟩
    | _ => cases h
  · rintro ⟨x, y, va, rfl, h1, h2⟩
    refine bind_eq_ok.2 ⟨va, adjIndex_iff.2 h1, bind_eq_ok.2 ⟨d, (adjContent_iff (hs va (hmem h1)) (by simp [UniqueKeys, UniqueKeysList] at hu; exact hu.2)).2 h2, rfl⟩⟩

/-- **C97.** Such an enum can be written: the tag is a text, the content is as the payload writes it. Reading what was written panics; inside a type that serde
buffers it gives the variant back, if the payload's type gives the payload back. -/
theorem C97_written (tag content : String) (htc : tag ≠ content) (deny : Bool) (vs : List AVariant) (hs : ∀ va ∈ vs, ShapeFine va.variant.shape)
    (name : String) (payload : Option (Data × Value)) (hp : ∀ p ∈ payload, ser p.1 = .ok p.2) :
    ∃ w, ser (adjCalls tag content name (payload.map Prod.fst)) = .ok w ∧
      child w (.key tag) = some (.string name) ∧ child w (.key content) = payload.map Prod.snd ∧
      (∀ k, k ≠ tag → k ≠ content → child w (.key k) = none) ∧
      (Reader.adjacent tag content deny vs).direct w = .panic ∧
      ∀ va, vs.find? (fun a => a.variant.name == name) = some va → ∀ owned d,
        (payload = none → WithoutContent va d) → (∀ p ∈ payload, ContentReads owned va.variant p.2 d ∧ ContentReads true va.variant p.2 d) →
        (Reader.adjacent tag content deny vs).buffered owned w = .ok d := by
  have hct : content ≠ tag := Ne.symm htc
  have fin : ∀ w : Value, UniqueKeys w → w.isMap = true → child w (.key tag) = some (.string name) → child w (.key content) = payload.map Prod.snd →
      (∀ k, k ≠ tag → k ≠ content → child w (.key k) = none) → (Reader.adjacent tag content deny vs).direct w = .panic ∧
      ∀ va, vs.find? (fun a => a.variant.name == name) = some va → ∀ owned d,
        (payload = none → WithoutContent va d) → (∀ p ∈ payload, ContentReads owned va.variant p.2 d ∧ ContentReads true va.variant p.2 d) →
        (Reader.adjacent tag content deny vs).buffered owned w = .ok d := by
    intro w hu hm h1 h2 h3
    have hden : deny = true → ∀ k x, child w (.key k) = some x → k = tag ∨ k = content := by
      intro _ k x hk
      by_contra hc
      rw [not_or] at hc
      rw [h3 k hc.1 hc.2] at hk
      cases hk
    refine ⟨(C97_direct tag content deny vs w hu).2.2 (by rw [h1]; simp) ?_ hden, fun va hva owned d g1 g2 => ?_⟩
    · intro y hy
      rw [h2] at hy
      cases payload with
      | none => cases hy
      | some p =>
        cases hy
        rw [← no128_iff]
        exact no128_ser _ _ (hp p rfl)
    · refine (C97_inside tag content htc deny vs hs owned w hu hm d).2 hden (.string name) va h1 ⟨name, hva, Or.inl rfl⟩ ?_
      rw [h2]
      cases payload with
      | none => exact Or.inl ⟨rfl, g1 rfl⟩
      | some p => exact Or.inr ⟨p.2, rfl, g2 p rfl⟩
  cases payload with
  | none =>
    refine ⟨.map [(tag, .string name)], rfl, ?_⟩
    have g1 : child (.map [(tag, .string name)]) (.key tag) = some (.string name) := by simp [child_key_map, hmGet]
    have g2 : child (.map [(tag, Value.string name)]) (.key content) = Option.map Prod.snd (none : Option (Data × Value)) := by simp [child_key_map, hmGet, htc]
    have g3 : ∀ k, k ≠ tag → k ≠ content → child (.map [(tag, Value.string name)]) (.key k) = none := by
      intro k h1 h2; simp [child_key_map, hmGet, Ne.symm h1]
    exact ⟨g1, g2, g3, fin _ (by rw [uniqueKeys_map]; simp [UniqueKeys]) rfl g1 g2 g3⟩
  | some p =>
    obtain ⟨d, x⟩ := p
    have hx := hp _ rfl
    dsimp only at hx
    have hser : ser (adjCalls tag content name (Option.map Prod.fst (some (d, x)))) = .ok (.map [(tag, .string name), (content, x)]) := by
      refine ser_struct.2 ⟨[(tag, .string name), (content, x)], ?_, ?_⟩
      · exact .cons ⟨rfl, rfl⟩ (.cons ⟨rfl, hx⟩ .nil)
      · rw [insAll_fresh]
        · rfl
        all_goals simp [htc]
    refine ⟨_, hser, ?_⟩
    have g1 : child (.map [(tag, .string name), (content, x)]) (.key tag) = some (.string name) := by simp [child_key_map, hmGet]
    have g2 : child (.map [(tag, .string name), (content, x)]) (.key content) = Option.map Prod.snd (some (d, x)) := by simp [child_key_map, hmGet, htc]
    have g3 : ∀ k, k ≠ tag → k ≠ content → child (.map [(tag, .string name), (content, x)]) (.key k) = none := by
      intro k h1 h2; simp [child_key_map, hmGet, Ne.symm h1, Ne.symm h2]
    exact ⟨g1, g2, g3, fin _ (uniqueKeys_ser _ _ hser) rfl g1 g2 g3⟩

/-- **C97.** Whether a value with a 128-bit integer in the content gives an error or a panic depends on the order of its entries, that is, on the order of a
`HashMap`: two equal values, one gives an error and the other panics. -/
theorem C97_order (tag content : String) (htc : tag ≠ content) (deny : Bool) (vs : List AVariant) (t : Value) (n : IntOf .i128) (ht : UniqueKeys t) :
    ∃ v v', Same v v' ∧ UniqueKeys v ∧ UniqueKeys v' ∧ (∃ e, (Reader.adjacent tag content deny vs).direct v = .err e) ∧
      (Reader.adjacent tag content deny vs).direct v' = .panic := by
  have hct : content ≠ tag := Ne.symm htc
  have u1 : UniqueKeys (.map [(content, .longInteger n), (tag, t)]) := by
    rw [uniqueKeys_map]; refine ⟨by simp [hct], ?_⟩; simp [ht, UniqueKeys]
  have u2 : UniqueKeys (.map [(tag, t), (content, .longInteger n)]) := by
    rw [uniqueKeys_map]; refine ⟨by simp [htc], ?_⟩; simp [ht, UniqueKeys]
  refine ⟨.map [(content, .longInteger n), (tag, t)], .map [(tag, t), (content, .longInteger n)], ?_, u1, u2, ⟨.deserializationError "invalid type: i128", ?_⟩, ?_⟩
  · rw [same_map]
    intro k
    by_cases h1 : content = k
    · subst h1
      simp [hmGet, htc, Same.refl]
    · by_cases h2 : tag = k
      · subst h2
        simp [hmGet, hct, Same.refl]
      · simp [hmGet, h1, h2]
  · show adjLoop _ _ _ _ _ _ _ _ _ = _
    rw [adjLoop_cons, if_neg hct, if_pos rfl]; rfl
  · show adjLoop _ _ _ _ _ _ _ _ _ = _
    rw [adjLoop_cons, if_pos rfl]; rfl

/-- **C97.** So a field of such a type makes a configuration unreadable as soon as some layer has an entry for it, whatever the entry. -/
theorem C97_config (b : Build) (fm : Formats) (calls : List RegCall) (w : World) (skip : Bool) (v : Value)
    (h : (register b fm calls).buildValue w skip = .ok v) (hp : ∀ e ∈ firsts (offers b fm calls), Proper e.2)
    (fs : List RField) (hf : (fs.map RField.name).Nodup) (g : RField) (hg : g ∈ fs) (tag content : String) (deny : Bool) (vs : List AVariant)
    (hr : g.reader = Reader.adjacent tag content deny vs) (hs : entriesAt w (firsts (offers b fm calls)) g.name ≠ []) (d : Data) :
    (Reader.struct fs).direct v ≠ .ok d := by
  obtain ⟨hvm, hvu⟩ := C08_map b fm calls w skip v h
  have hc : ∃ x, child v (.key g.name) = some x := by
    have key : child v (.key g.name) = (entriesAt w (firsts (offers b fm calls)) g.name).foldl overlay none := by
      rw [build_ok h, child_fold g.name _ hp Value.newMap rfl]; rfl
    rw [key]
    exact Option.isSome_iff_exists.1 (overlay_isSome _ none (Or.inr hs))
  obtain ⟨x, hx⟩ := hc
  have hvu := hvu hp
  cases v with
  | map m =>
    obtain ⟨hn, hm⟩ := uniqueKeys_map.1 hvu
    rw [child_key_map] at hx
    intro hd
    obtain ⟨ds, -, hds⟩ := (deStruct_ok (fs.map RField.directDec) (by rw [List.map_map]; exact hf) m hn d).1 hd
    rw [List.forall₂_map_left_iff] at hds
    obtain ⟨nd, -, -, h1⟩ := forall2_left hds g hg
    rw [show (g.directDec).name = g.name from rfl, hx] at h1
    dsimp only [RField.directDec] at h1
    rw [hr] at h1
    exact (C97_direct tag content deny vs x (hm _ (hmGet_mem hx))).1 _ h1
  | _ => cases hvm

/-! ## A concrete enum -/

/-- `#[serde(tag = "type", content = "data")] enum Auth { Open, Token(String), Pair(u8, u8), Basic { port: u16, debug: Option<bool> } }`. -/
def exAuth : List AVariant :=
  [⟨⟨"Open", .unit⟩, .err (.deserializationError "missing field `data`")⟩, ⟨⟨"Token", .newtype Reader.string⟩, .err (.deserializationError "missing field `data`")⟩,
   ⟨⟨"Pair", .tuple [Reader.int .u8, Reader.int .u8]⟩, .err (.deserializationError "missing field `data`")⟩,
   ⟨⟨"Basic", .struct exNet⟩, .err (.deserializationError "missing field `data`")⟩]

theorem exAuth_fine : ∀ va ∈ exAuth, ShapeFine va.variant.shape := by
  obtain ⟨-, h1, ⟨hb, hi, hf, hs, hc, hst⟩, h3, -⟩ := C91_enum
  have he := exEither_fine
  intro va h
  simp only [exAuth, List.mem_cons, List.not_mem_nil, or_false] at h
  rcases h with rfl | rfl | rfl | rfl
  · exact trivial
  · intro o v; cases v <;> simp [Reader.string, badContent]
  · exact he (exEither[2]) (by simp [exEither])
  · exact he (exEither[1]) (by simp [exEither])

theorem exAuthMap_unique : UniqueKeys (.map [("data", .string "s3cret"), ("type", .string "Token"), ("zzz", .none)]) := by
  simp [UniqueKeys, UniqueKeysMap, UniqueKeysEntry]

/-- It panics; it is an error without a tag; inside a buffer it is the token, unless unknown entries are denied. -/
example : (Reader.adjacent "type" "data" false exAuth).direct (.map [("data", .string "s3cret"), ("type", .string "Token"), ("zzz", .none)]) = .panic :=
  (C97_direct "type" "data" false exAuth _ exAuthMap_unique).2.2 (by decide) (by
    intro y hy
    cases hy
    rw [← no128_iff]
    exact no128_ser (.str "s3cret") _ rfl) (by intro h; cases h)
example : ∃ e, (Reader.adjacent "kind" "data" false exAuth).direct (.map [("data", .string "s3cret"), ("type", .string "Token"), ("zzz", .none)]) = .err e :=
  (C97_direct "kind" "data" false exAuth _ exAuthMap_unique).2.1 (by decide)
example : (Reader.adjacent "type" "data" false exAuth).buffered true (.map [("data", .string "s3cret"), ("type", .string "Token"), ("zzz", .none)]) =
    .ok (.newtypeVariant "Token" (.str "s3cret")) :=
  (C97_inside "type" "data" (by decide) false exAuth exAuth_fine true _ exAuthMap_unique rfl _).2 (by intro h; cases h) (.string "Token") (exAuth[1]) rfl
    ⟨"Token", rfl, Or.inl rfl⟩ (Or.inr ⟨.string "s3cret", rfl, .newtype Reader.string _ rfl rfl, .newtype Reader.string _ rfl rfl⟩)
example (d : Data) : (Reader.adjacent "type" "data" true exAuth).buffered true (.map [("data", .string "s3cret"), ("type", .string "Token"), ("zzz", .none)]) ≠ .ok d := by
  intro h
  rcases ((C97_inside "type" "data" (by decide) true exAuth exAuth_fine true _ exAuthMap_unique rfl d).1 h).1 rfl "zzz" .none rfl with h | h <;> revert h <;> decide
/-- As a list, without content, and with the variant's number. -/
example (d : Data) : (Reader.adjacent "type" "data" true exAuth).buffered true (.array [.uInteger ⟨1, by decide⟩, .string "s3cret"]) = .ok d ↔
    d = .newtypeVariant "Token" (.str "s3cret") := by
  rw [C97_list "type" "data" true exAuth exAuth_fine true _ (by simp [UniqueKeys, UniqueKeysList]) rfl d]
  constructor
  · rintro ⟨x, y, va, h1, h2, h3⟩
    cases h1
    rcases h2 with ⟨n, h, -⟩ | ⟨a, b, e, n, h, hl⟩
    · cases h
    · cases h
      match a, hl with
      | [a0], _ =>
        cases e
        cases h3 with
        | newtype r d hs h => cases hs; cases h; rfl
        | unit hs => cases hs
        | tuple _ _ _ hs => cases hs
        | struct _ _ hs => cases hs
  · rintro rfl
    exact ⟨_, _, exAuth[1], rfl, Or.inr ⟨[exAuth[0]], [exAuth[2], exAuth[3]], rfl, _, rfl, rfl⟩, .newtype Reader.string _ rfl rfl⟩
example : (Reader.adjacent "type" "data" true exAuth).buffered true (.array [.uInteger ⟨2, by decide⟩, .array [.integer ⟨3, by decide⟩, .integer ⟨4, by decide⟩]]) =
    .ok (.tupleVariant "Pair" [.int .u8 ⟨3, by decide⟩, .int .u8 ⟨4, by decide⟩]) := rfl
example : (Reader.adjacent "type" "data" true exAuth).buffered true (.map [("type", .string "Open")]) = .ok (.unitVariant "Open") := rfl
example : ∃ e, (Reader.adjacent "type" "data" true exAuth).buffered true (.map [("type", .string "Token")]) = .err e := ⟨_, rfl⟩

/-- Written with its content, and without. -/
example : ∃ w, ser (adjCalls "type" "data" "Token" (some (.str "s3cret"))) = .ok w ∧ (Reader.adjacent "type" "data" true exAuth).direct w = .panic ∧
    (Reader.adjacent "type" "data" true exAuth).buffered false w = .ok (.newtypeVariant "Token" (.str "s3cret")) := by
  obtain ⟨w, h1, -, -, -, h2, h3⟩ := C97_written "type" "data" (by decide) true exAuth exAuth_fine "Token" (some (.str "s3cret", .string "s3cret")) (by intro p hp; cases hp; rfl)
  exact ⟨w, h1, h2, h3 (exAuth[1]) rfl false _ (by intro h; cases h) (by
    intro p hp; cases hp; exact ⟨.newtype Reader.string _ rfl rfl, .newtype Reader.string _ rfl rfl⟩)⟩
example : ∃ w, ser (adjCalls "type" "data" "Open" none) = .ok w ∧ (Reader.adjacent "type" "data" true exAuth).direct w = .panic ∧
    (Reader.adjacent "type" "data" true exAuth).buffered false w = .ok (.unitVariant "Open") := by
  obtain ⟨w, h1, -, -, -, h2, h3⟩ := C97_written "type" "data" (by decide) true exAuth exAuth_fine "Open" none (by intro p hp; cases hp)
  exact ⟨w, h1, h2, h3 (exAuth[0]) rfl false _ (fun _ => .unit rfl) (by intro p hp; cases hp)⟩
example : ∃ v v', Same v v' ∧ UniqueKeys v ∧ UniqueKeys v' ∧ (∃ e, (Reader.adjacent "type" "data" false exAuth).direct v = .err e) ∧
    (Reader.adjacent "type" "data" false exAuth).direct v' = .panic :=
  C97_order "type" "data" (by decide) false exAuth (.string "Token") ⟨5, by decide⟩ (by trivial)

/-- A configuration whose `name` is meant to be such an enum. -/
example (d : Data) : (Reader.struct [⟨"name", Reader.adjacent "type" "data" false exAuth, .ok .none⟩]).direct (.map [("name", .string "n"), ("port", .string "80")]) ≠ .ok d := by
  refine C97_config exB1 exFormats exTextCalls exDisk false _ rfl ?_ _ (by decide) _ (List.mem_cons_self) "type" "data" false exAuth rfl (by
    intro h; revert h; decide) d
  intro e he
  obtain ⟨c, hc, ho⟩ := List.mem_filterMap.1 (mem_firsts he)
  simp only [exTextCalls, List.mem_cons, List.not_mem_nil, or_false] at hc
  apply C08_builtin_proper exB1 exFormats c e _ _ ho
  · rcases hc with rfl | rfl <;> trivial
  · rcases hc with rfl | rfl <;> intro n v hv <;> cases hv <;> simp [UniqueKeys, UniqueKeysMap, UniqueKeysEntry]

end Verif.Props
