import Verif.Spec.Checked
import Verif.Props.Attrs
import Verif.Props.Kept
import Verif.Lemmas.Toml
/-!
# Types with checks (C131)
-/
namespace Verif.Props
open Spec

/-! ## Lists of types and fields -/

theorem decodersC_get : ∀ (ts : List CTy) (j : Nat), (decodersC ts)[j]? = (ts[j]?).map (fun t => fun v => deC t v) := by
  intro ts
  induction ts with
  | nil => intro j; simp [decodersC]
  | cons t r ih => intro j; rw [decodersC]; cases j <;> simp [ih]

theorem decodersC_length : ∀ ts : List CTy, (decodersC ts).length = ts.length := by
  intro ts
  induction ts with
  | nil => rfl
  | cons t r ih => rw [decodersC]; simp [ih]

theorem fieldsC_map : ∀ fs : List (CField × CTy), fieldsC fs = fs.map fieldC := by
  intro fs
  induction fs with
  | nil => rfl
  | cons f r ih => rw [fieldsC, ih]; rfl

theorem fieldC_name (f : CField × CTy) : (fieldC f).name = f.1.name := by obtain ⟨a, t⟩ := f; rw [fieldC]
theorem fieldC_dec (f : CField × CTy) (v : Value) : (fieldC f).dec v = deC f.2 v := by obtain ⟨a, t⟩ := f; rw [fieldC]
theorem fieldC_keys (f : CField × CTy) : readFrom (fieldC f) = fieldKeys f.1 := by
  obtain ⟨a, t⟩ := f
  rw [fieldC]
  unfold readFrom fieldKeys
  cases a.skip <;> rfl
theorem fieldC_missing (f : CField × CTy) :
    (fieldC f).missing = match f.1.default with | some d => .ok d | none => missingC f.1.name f.2 := by
  obtain ⟨a, t⟩ := f; rw [fieldC]; cases a.default <;> rfl

theorem distinctC {fs : List (CField × CTy)} (hn : (fs.map fun f => f.1.name).Nodup) (hk : (fs.flatMap fun f => fieldKeys f.1).Nodup) :
    AttrsDistinct (fieldsC fs) := by
  rw [fieldsC_map]
  constructor
  · rw [List.map_map, show (AttrField.name ∘ fieldC) = fun f : CField × CTy => f.1.name from funext fieldC_name]
    exact hn
  · rw [List.flatMap_map, show (fun f => readFrom (fieldC f)) = fun f : CField × CTy => fieldKeys f.1 from funext fieldC_keys]
    exact hk

theorem deTryFrom_ok {conv : Data → Except String Data} {dec : Decoder} {v : Value} {d : Data} :
    deTryFrom conv dec v = .ok d ↔ ∃ raw, dec v = .ok raw ∧ conv raw = .ok d := by
  unfold deTryFrom
  rw [bind_eq_ok]
  refine exists_congr fun raw => and_congr_right fun _ => ?_
  cases conv raw with
  | ok x => simp
  | error m => simp

/-! ## What was read has passed -/

theorem missing_passed (n : String) (t : CTy) (d : Data) (h : missingC n t = .ok d) : Passed t d := by
  match t, h with
  | .option t, h => rw [missingC] at h; cases h; exact .none t
  | .tryFrom conv t, h =>
    rw [missingC, bind_eq_ok] at h
    obtain ⟨raw, h1, h2⟩ := h
    split at h2
    · rename_i x hx
      cases h2
      exact .tryFrom (missing_passed n t raw h1) hx
    · cases h2
  | .plain dec, _ => exact .plain dec d
  | .newtype t, h => simp [missingC] at h
  | .seq t, h => simp [missingC] at h
  | .tuple ts, h => simp [missingC] at h
  | .map k t, h => simp [missingC] at h
  | .struct b fs, h => simp [missingC] at h

theorem keyInsert_mem (es : List (Key × Data)) (k : Key) (d : Data) : ∀ e ∈ keyInsert es k d, e ∈ es ∨ e.2 = d := by
  induction es with
  | nil => intro e he; simp [keyInsert] at he; subst he; exact Or.inr rfl
  | cons a r ih =>
    obtain ⟨k', d'⟩ := a
    intro e he
    rw [keyInsert] at he
    split at he
    · rcases List.mem_cons.1 he with rfl | he
      · exact Or.inr rfl
      · exact Or.inl (List.mem_cons_of_mem _ he)
    · rcases List.mem_cons.1 he with rfl | he
      · exact Or.inl List.mem_cons_self
      · exact (ih e he).imp (List.mem_cons_of_mem _) id

theorem keyInsAll_mem (kds : List (Key × Data)) : ∀ es, ∀ e ∈ keyInsAll es kds, e ∈ es ∨ ∃ kd ∈ kds, e.2 = kd.2 := by
  induction kds with
  | nil => intro es e he; exact Or.inl he
  | cons a r ih =>
    intro es e he
    rcases ih _ e he with h | ⟨kd, h1, h2⟩
    · rcases keyInsert_mem es a.1 a.2 e h with h | h
      · exact Or.inl h
      · exact Or.inr ⟨a, List.mem_cons_self, h⟩
    · exact Or.inr ⟨kd, List.mem_cons_of_mem _ h1, h2⟩

/-- **C131.** Whatever the settings hold, if a type is read at all, then every part of the result whose type has a check was made by that check: an instance that
the program's own constructor would refuse never comes out of the configuration, at any depth. -/
theorem C131_passed (T : CTy) (hT : Honest T) (v : Value) (hv : UniqueKeys v) (d : Data) (h : deC T v = .ok d) : Passed T d := by
  induction hT generalizing v d with
  | plain dec => exact .plain dec d
  | @option t _ ih =>
    cases v with
    | none => rw [deC] at h; cases h; exact .none t
    | _ =>
      rw [deC] at h
      · rw [bind_eq_ok] at h
        obtain ⟨x, h1, h2⟩ := h
        cases h2
        exact .some (ih _ hv x h1)
      · intro e; cases e
  | newtype _ ih =>
    rw [deC, bind_eq_ok] at h
    obtain ⟨x, h1, h2⟩ := h
    cases h2
    exact .newtype (ih v hv x h1)
  | seq _ ih =>
    cases v with
    | array xs =>
      rw [deC, bind_eq_ok] at h
      obtain ⟨ds, h1, h2⟩ := h
      cases h2
      obtain ⟨ys, h3, h4⟩ := (deVecLoop_ok _ xs [] ds).1 h1
      rw [List.nil_append] at h4
      subst h4
      refine .seq fun d hd => ?_
      obtain ⟨x, hx, h5⟩ := forall2_right h3 d hd
      exact ih x (uniqueKeys_array.1 hv x hx) d h5
    | _ => simp [deC] at h
  | tuple _ ih =>
    cases v with
    | array xs =>
      rw [deC, bind_eq_ok] at h
      obtain ⟨ds, h1, h2⟩ := h
      cases h2
      obtain ⟨ys, h3, h4, h5, h6⟩ := (deTupleLoop_ok _ xs 0 [] ds).1 h1
      rw [List.nil_append] at h3
      subst h3
      rw [decodersC_length] at h4 h5
      refine .tuple h4 fun i t d ht hd => ?_
      have hi : i < xs.length := by
        have := (List.getElem?_eq_some_iff.1 ht).1
        omega
      refine ih t (List.mem_of_getElem? ht) xs[i] (uniqueKeys_array.1 hv _ (List.getElem_mem hi)) d ?_
      exact h6 i (fun v => deC t v) xs[i] d (by rw [decodersC_get, ht]; rfl) (List.getElem?_eq_getElem hi) hd
    | _ => simp [deC] at h
  | map _ ih =>
    cases v with
    | map m =>
      rw [deC, bind_eq_ok] at h
      obtain ⟨es, h1, h2⟩ := h
      cases h2
      obtain ⟨kds, h3, rfl⟩ := (deMapLoop_ok _ _ m [] es).1 h1
      refine .map fun e he => ?_
      obtain ⟨e', he', rfl⟩ := List.mem_map.1 he
      rcases keyInsAll_mem kds [] e' he' with h | ⟨kd, hkd, h4⟩
      · cases h
      · obtain ⟨x, hx, -, h5⟩ := forall2_right h3 kd hkd
        simp only [h4]
        exact ih x.2 ((uniqueKeys_map.1 hv).2 x hx) kd.2 h5
    | _ => simp [deC] at h
  | @struct deny fs hn hk hdef _ ih =>
    rw [deC] at h
    cases hm : v.isMap with
    | false => rw [(C90_nonmap_no_panic deny (fieldsC fs) v).1 hm] at h; cases h
    | true =>
      obtain ⟨-, ds, rfl, g⟩ := (C90_exact deny _ (distinctC hn hk) v hv hm d).1 h
      obtain ⟨gl, gi⟩ := forall2_index g
      rw [fieldsC_map, List.length_map] at gl
      have gi' : ∀ (i : Nat) f (nd : String × Data), fs[i]? = some f → ds[i]? = some nd →
          nd.1 = (fieldC f).name ∧ FieldGets v (fieldC f) nd.2 := fun i f nd hf hnd =>
        gi i (fieldC f) nd (by rw [fieldsC_map, List.getElem?_map, hf]; rfl) hnd
      refine .struct gl.symm (fun i f nd hf hnd => ?_) (fun i f nd hf hnd => ?_)
      · rw [(gi' i f nd hf hnd).1, fieldC_name]
      · cases (gi' i f nd hf hnd).2 with
        | read k x hk' hx _ hd =>
          rw [fieldC_dec] at hd
          exact ih f (List.mem_of_getElem? hf) x (uniqueKeys_child hv hx) _ hd
        | absent _ hd =>
          rw [fieldC_missing] at hd
          split at hd
          · rename_i d0 hd0
            cases hd
            exact hdef f (List.mem_of_getElem? hf) _ hd0
          · exact missing_passed _ _ _ hd
  | tryFrom _ ih =>
    rw [deC, deTryFrom_ok] at h
    obtain ⟨raw, h1, h2⟩ := h
    exact .tryFrom (ih v hv raw h1) h2

/-! ## Checks -/

/-- **C131**, a check: the type is read exactly if the type it is made from is read and the conversion takes it; a refusal is reported with the conversion's own
message, and an error of the inner type is reported as it is. -/
theorem C131_checked (conv : Data → Except String Data) (T : CTy) (v : Value) :
    (∀ d, deC (.tryFrom conv T) v = .ok d ↔ ∃ raw, deC T v = .ok raw ∧ conv raw = .ok d) ∧
    (∀ raw msg, deC T v = .ok raw → conv raw = .error msg → deC (.tryFrom conv T) v = .err (.deserializationError msg)) ∧
    (∀ e, deC T v = .err e → deC (.tryFrom conv T) v = .err e) := by
  refine ⟨fun d => by rw [deC, deTryFrom_ok], fun raw msg h1 h2 => ?_, fun e h => ?_⟩
  · rw [deC]; simp only [deTryFrom, h1, Outcome.bind_ok, h2]
  · rw [deC]; simp only [deTryFrom, h]; rfl

/-- **C131**, a refusal inside is a refusal: an option that is not null, a newtype, a list, a tuple and a map are read exactly if all they hold is read (a tuple
leaves out what is too much; of a map also its keys), and then hold just that. -/
theorem C131_inside (T : CTy) :
    (deC (.option T) .none = .ok .none) ∧
    (∀ v d, v ≠ .none → (deC (.option T) v = .ok d ↔ ∃ x, deC T v = .ok x ∧ d = .some x)) ∧
    (∀ v d, deC (.newtype T) v = .ok d ↔ ∃ x, deC T v = .ok x ∧ d = .newtypeStruct x) ∧
    (∀ v d, deC (.seq T) v = .ok d ↔ ∃ xs ys, v = .array xs ∧ List.Forall₂ (fun x y => deC T x = .ok y) xs ys ∧ d = .seq ys) ∧
    (∀ ts v d, deC (.tuple ts) v = .ok d ↔ ∃ xs rest ys, v = .array (xs ++ rest) ∧ xs.length = ts.length ∧ ys.length = ts.length ∧
      (∀ (i : Nat) t x y, ts[i]? = some t → xs[i]? = some x → ys[i]? = some y → deC t x = .ok y) ∧ d = .tuple ys) ∧
    (∀ kt v, (∃ d, deC (.map kt T) v = .ok d) ↔ ∃ m, v = .map m ∧ ∀ e ∈ m, (∃ k, deKey kt e.1 = .ok k) ∧ ∃ y, deC T e.2 = .ok y) := by
  refine ⟨by rw [deC], fun v d hv => ?_, fun v d => ?_, fun v d => ?_, fun ts v d => ?_, fun kt v => ?_⟩
  · rw [show deC (.option T) v = (deC T v >>= fun d => .ok (.some d)) from by cases v <;> first | (exact (hv rfl).elim) | (rw [deC]; intro e; cases e),
      bind_eq_ok]
    refine exists_congr fun x => and_congr_right fun _ => ?_
    simp [eq_comm]
  · rw [deC, bind_eq_ok]
    refine exists_congr fun x => and_congr_right fun _ => ?_
    simp [eq_comm]
  · cases v with
    | array xs =>
      rw [deC, bind_eq_ok]
      simp only [deVecLoop_ok, List.nil_append]
      constructor
      · rintro ⟨ys, ⟨ys', h1, e⟩, h2⟩
        subst e
        cases h2
        exact ⟨xs, _, rfl, h1, rfl⟩
      · rintro ⟨_, ys, e, h1, rfl⟩
        cases e
        exact ⟨ys, ⟨ys, h1, rfl⟩, rfl⟩
    | _ => simp [deC]
  · cases v with
    | array xs =>
      rw [deC, bind_eq_ok]
      simp only [deTupleLoop_ok, List.nil_append, decodersC_length, decodersC_get]
      constructor
      · rintro ⟨ys, ⟨ys', e, h1, h2, h3⟩, h4⟩
        subst e
        cases h4
        refine ⟨xs.take ts.length, xs.drop ts.length, _, by rw [List.take_append_drop], by rw [List.length_take]; omega, h1, ?_, rfl⟩
        intro i t x y ht hx hy
        have hi : i < ts.length := (List.getElem?_eq_some_iff.1 ht).1
        rw [List.getElem?_take_of_lt hi] at hx
        exact h3 i (fun v => deC t v) x y (by rw [ht]; rfl) hx hy
      · rintro ⟨zs, rest, ys, e, h1, h2, h3, rfl⟩
        cases e
        refine ⟨ys, ⟨ys, rfl, h2, by rw [List.length_append]; omega, ?_⟩, rfl⟩
        intro i dec x y hd hx hy
        cases ht : ts[i]? with
        | none => rw [ht] at hd; cases hd
        | some t =>
          rw [ht] at hd
          cases hd
          have hi : i < zs.length := by rw [h1]; exact (List.getElem?_eq_some_iff.1 ht).1
          rw [List.getElem?_append_left hi] at hx
          exact h3 i t x y ht hx hy
    | _ => simp [deC]
  · cases v with
    | map m =>
      rw [deC]
      simp only [bind_eq_ok, deMapLoop_ok]
      constructor
      · rintro ⟨d, _, ⟨kds, h1, rfl⟩, -⟩
        refine ⟨m, rfl, fun e he => ?_⟩
        obtain ⟨kd, -, h2, h3⟩ := forall2_left h1 e he
        exact ⟨⟨_, h2⟩, _, h3⟩
      · rintro ⟨_, e, h⟩
        cases e
        obtain ⟨kds, hk⟩ := forall2_exists (R := fun (e : String × Value) (kd : Key × Data) => deKey kt e.1 = .ok kd.1 ∧ deC T e.2 = .ok kd.2) (l := m)
          fun e he => by
            obtain ⟨⟨k, h1⟩, y, h2⟩ := h e he
            exact ⟨(k, y), h1, h2⟩
        exact ⟨_, _, ⟨kds, hk, rfl⟩, rfl⟩
    | _ => simp [deC]

/-- **C131**, a key that is absent: a checked field without a default does not get past its check. Made from an `Option`, it is what its check makes of `None`;
made from anything else (that is not itself checked), the struct cannot be read. -/
theorem C131_absent (deny : Bool) (fs : List (CField × CTy)) (hT : Honest (.struct deny fs)) (v : Value) (hv : UniqueKeys v) (ds : List (String × Data))
    (hd : deC (.struct deny fs) v = .ok (.struct ds)) (i : Nat) (f : CField) (conv : Data → Except String Data) (T : CTy) (hf : fs[i]? = some (f, .tryFrom conv T))
    (hdef : f.default = none) (hno : ∀ k ∈ fieldKeys f, child v (.key k) = none) :
    (∀ t, T = .option t → ∃ d, ds[i]? = some (f.name, d) ∧ conv .none = .ok d) ∧
    ((∃ t, T = .option t) ∨ ∃ conv' t, T = .tryFrom conv' t) := by
  cases hT with
  | struct hn hk _ _ =>
    rw [deC] at hd
    have hm : v.isMap = true := by
      cases hm : v.isMap with
      | true => rfl
      | false => rw [(C90_nonmap_no_panic deny (fieldsC fs) v).1 hm] at hd; cases hd
    obtain ⟨-, ds0, e0, g⟩ := (C90_exact deny _ (distinctC hn hk) v hv hm _).1 hd
    cases e0
    obtain ⟨gl, gi⟩ := forall2_index g
    have hF : (fieldsC fs)[i]? = some (fieldC (f, .tryFrom conv T)) := by rw [fieldsC_map, List.getElem?_map, hf]; rfl
    have hil : i < ds.length := by rw [← gl]; exact (List.getElem?_eq_some_iff.1 hF).1
    obtain ⟨e1, e2⟩ := gi i _ _ hF (List.getElem?_eq_getElem hil)
    have e3 : missingC f.name (.tryFrom conv T) = .ok ds[i].2 := by
      cases e2 with
      | read k x hk' hx _ _ => rw [hno k (by rw [← fieldC_keys (f, .tryFrom conv T)]; exact hk')] at hx; cases hx
      | absent _ h => rw [fieldC_missing] at h; simp only [hdef] at h; exact h
    constructor
    · rintro t rfl
      refine ⟨ds[i].2, ?_, ?_⟩
      · rw [List.getElem?_eq_getElem hil]
        congr 1
        exact Prod.ext (by rw [e1, fieldC_name]) rfl
      · rw [missingC, missingC, Outcome.bind_ok] at e3
        cases hc : conv .none with
        | ok d => rw [hc] at e3; cases e3; rfl
        | error m => rw [hc] at e3; cases e3
    · rw [missingC, bind_eq_ok] at e3
      obtain ⟨raw, e4, -⟩ := e3
      cases T with
      | option t => exact Or.inl ⟨t, rfl⟩
      | tryFrom c t => exact Or.inr ⟨c, t, rfl⟩
      | _ => simp [missingC] at e4

/-- **C131**, in a configuration: reading a type with checks from the built value of any layers gives only what has passed. -/
theorem C131_config (b : Build) (fm : Formats) (calls : List RegCall) (w : World) (skip : Bool) (v : Value)
    (h : (register b fm calls).buildValue w skip = .ok v) (hp : ∀ e ∈ firsts (offers b fm calls), Proper e.2) (T : CTy) (hT : Honest T) (d : Data)
    (hd : deC T v = .ok d) : Passed T d :=
  C131_passed T hT v ((C08_map b fm calls w skip v h).2 hp) d hd

/-- **C131**, no fallback: if the last layer that has a key holds there something that is no map and that the key's field refuses, the struct cannot be read,
whatever lower layers hold and whatever the field's default is. -/
theorem C131_refused (b : Build) (fm : Formats) (calls : List RegCall) (w : World) (skip : Bool) (v : Value)
    (h : (register b fm calls).buildValue w skip = .ok v) (hp : ∀ e ∈ firsts (offers b fm calls), Proper e.2)
    (deny : Bool) (fs : List (CField × CTy)) (hT : Honest (.struct deny fs)) (f : CField × CTy) (hf : f ∈ fs) (k : String) (hk : k ∈ fieldKeys f.1)
    (lower : List Value) (x : Value) (hx : entriesAt w (firsts (offers b fm calls)) k = lower ++ [x]) (hxm : x.isMap = false)
    (hr : ∀ y, deC f.2 x ≠ .ok y) (d : Data) : deC (.struct deny fs) v ≠ .ok d := by
  cases hT with
  | struct hn hkeys _ _ =>
    intro hd
    rw [deC] at hd
    obtain ⟨hvm, hvu⟩ := C08_map b fm calls w skip v h
    obtain ⟨-, ds, -, g⟩ := (C90_exact deny _ (distinctC hn hkeys) v (hvu hp) hvm d).1 hd
    obtain ⟨nd, -, -, hg⟩ := forall2_left g (fieldC f) (by rw [fieldsC_map]; exact List.mem_map_of_mem hf)
    have hc := (C75_section b fm calls w skip v h hp k).2.1 lower x hx hxm
    have hk' : k ∈ readFrom (fieldC f) := by rw [fieldC_keys]; exact hk
    cases hg with
    | read k' y _ hy only hdec =>
      have := only k hk' (by rw [hc]; simp)
      subst this
      rw [hc] at hy
      cases hy
      rw [fieldC_dec] at hdec
      exact hr _ hdec
    | absent hno _ => rw [hno k hk'] at hc; cases hc

/-- **C131**, an override is checked: put a layer with one entry on top of a configuration whose struct could be read. It can be read then exactly if the entry's
field takes it, and only this field changes. -/
theorem C131_override (b : Build) (fm : Formats) (calls : List RegCall) (w : World) (skip : Bool) (v : Value)
    (h : (register b fm calls).buildValue w skip = .ok v) (hp : ∀ e ∈ firsts (offers b fm calls), Proper e.2)
    (deny : Bool) (fs : List (CField × CTy)) (hT : Honest (.struct deny fs)) (ds : List (String × Data)) (hd : deC (.struct deny fs) v = .ok (.struct ds))
    (i : Nat) (f : CField × CTy) (hf : fs[i]? = some f) (k : String) (hk : k ∈ fieldKeys f.1) (hother : ∀ k' ∈ fieldKeys f.1, k' ≠ k → child v (.key k') = none)
    (layer : String) (hnew : ∀ a ∈ offers b fm calls, a.1 ≠ layer) (x : Value) (hxu : UniqueKeys x) (hxm : x.isMap = false) :
    ∃ v', (register b fm (calls ++ [.memory layer (.map [(k, x)])])).buildValue w skip = .ok v' ∧
      ∀ d, deC (.struct deny fs) v' = .ok d ↔ ∃ y, deC f.2 x = .ok y ∧ d = .struct (ds.set i (f.1.name, y)) := by
  refine ⟨_, C14_add_last b fm calls _ w skip (layer, .memory (.map [(k, x)])) (.map [(k, x)]) v rfl hnew rfl h, fun d => ?_⟩
  cases hT with
  | struct hn hkeys _ _ =>
    obtain ⟨hvm, hvu⟩ := C08_map b fm calls w skip v h
    have hvu := hvu hp
    have hxs : UniqueKeys (.map [(k, x)]) := uniqueKeys_map.2 ⟨by simp, by simpa using hxu⟩
    have hdist := distinctC hn hkeys
    have hm' : (v.merge (.map [(k, x)])).isMap = true := by rw [isMap_merge]; exact hvm
    have hu' : UniqueKeys (v.merge (.map [(k, x)])) := uniqueKeys_merge hvu hxs
    have hself : child (v.merge (.map [(k, x)])) (.key k) = some x := by
      rw [child_merge_key hvm hxs, child_key_map, show hmGet [(k, x)] k = some x from by simp [hmGet]]
      cases child v (.key k) <;> simp [overlay, hxm]
    have hrest : ∀ k', k' ≠ k → child (v.merge (.map [(k, x)])) (.key k') = child v (.key k') := by
      intro k' hne
      rw [child_merge_key hvm hxs, child_key_map, show hmGet [(k, x)] k' = none from by simp [hmGet, Ne.symm hne]]
    generalize v.merge (.map [(k, x)]) = v' at *
    rw [deC] at hd
    rw [deC]
    obtain ⟨hdeny, ds0, e0, g⟩ := (C90_exact deny _ hdist v hvu hvm _).1 hd
    cases e0
    obtain ⟨gl, gi⟩ := forall2_index g
    have hfm : f ∈ fs := List.mem_of_getElem? hf
    have hF : (fieldsC fs)[i]? = some (fieldC f) := by rw [fieldsC_map, List.getElem?_map, hf]; rfl
    have hFm : fieldC f ∈ fieldsC fs := List.mem_of_getElem? hF
    have hkF : k ∈ readFrom (fieldC f) := by rw [fieldC_keys]; exact hk
    -- the other fields see what they saw
    have others : ∀ (j : Nat) F, (fieldsC fs)[j]? = some F → j ≠ i → ∀ y, FieldGets v' F y ↔ FieldGets v F y := by
      intro j F hj hne y
      have hne' : ∀ k' ∈ readFrom F, k' ≠ k := by
        rintro k' hk' rfl
        have := owner_eq hdist.2 (List.mem_of_getElem? hj) hFm hk' hkF
        subst this
        have n1 : ((fieldsC fs).map AttrField.name)[j]? = some (fieldC f).name := by simp [hj]
        have n2 : ((fieldsC fs).map AttrField.name)[i]? = some (fieldC f).name := by simp [hF]
        exact hne ((List.getElem?_inj (by rw [List.length_map]; exact (List.getElem?_eq_some_iff.1 hj).1) hdist.1).1 (n1.trans n2.symm))
      constructor
      · intro hg
        cases hg with
        | read k' z hk' hz only hdec =>
          exact .read k' z hk' (by rw [← hrest k' (hne' k' hk')]; exact hz) (fun k2 h2 => by rw [← hrest k2 (hne' k2 h2)]; exact only k2 h2) hdec
        | absent hno hdec => exact .absent (fun k' hk' => by rw [← hrest k' (hne' k' hk')]; exact hno k' hk') hdec
      · intro hg
        cases hg with
        | read k' z hk' hz only hdec =>
          exact .read k' z hk' (by rw [hrest k' (hne' k' hk')]; exact hz) (fun k2 h2 => by rw [hrest k2 (hne' k2 h2)]; exact only k2 h2) hdec
        | absent hno hdec => exact .absent (fun k' hk' => by rw [hrest k' (hne' k' hk')]; exact hno k' hk') hdec
    -- the field sees the entry
    have own : ∀ y, FieldGets v' (fieldC f) y ↔ deC f.2 x = .ok y := by
      intro y
      constructor
      · intro hg
        cases hg with
        | read k' z hk' hz only hdec =>
          have := only k hkF (by rw [hself]; simp)
          subst this
          rw [hself] at hz
          cases hz
          rw [← fieldC_dec]; exact hdec
        | absent hno _ => rw [hno k hkF] at hself; cases hself
      · intro hy
        refine .read k x hkF hself (fun k' hk' hc => ?_) (by rw [fieldC_dec]; exact hy)
        refine Decidable.byContradiction fun hne => hc ?_
        rw [hrest k' hne]
        exact hother k' (by rw [← fieldC_keys]; exact hk') hne
    -- every field decodes to one thing
    have unique : ∀ F y y', FieldGets v F y → FieldGets v F y' → y = y' := by
      intro F y y' h1 h2
      cases h1 with
      | read k1 z1 hk1 hz1 only1 hd1 =>
        cases h2 with
        | read k2 z2 hk2 hz2 only2 hd2 =>
          have := only1 k2 hk2 (by rw [hz2]; simp)
          subst this
          rw [hz1] at hz2
          cases hz2
          rw [hd1] at hd2
          cases hd2
          rfl
        | absent hno _ => rw [hno k1 hk1] at hz1; cases hz1
      | absent hno1 hd1 =>
        cases h2 with
        | read k2 z2 hk2 hz2 _ _ => rw [hno1 k2 hk2] at hz2; cases hz2
        | absent _ hd2 => rw [hd1] at hd2; cases hd2; rfl
    rw [C90_exact deny _ hdist v' hu' hm' d]
    have hil : i < ds.length := by rw [← gl]; exact (List.getElem?_eq_some_iff.1 hF).1
    constructor
    · rintro ⟨-, ds', rfl, g'⟩
      obtain ⟨gl', gi'⟩ := forall2_index g'
      have hil' : i < ds'.length := by rw [← gl', gl]; exact hil
      obtain ⟨e1, e2⟩ := gi' i _ _ hF (List.getElem?_eq_getElem hil')
      refine ⟨_, (own _).1 e2, ?_⟩
      congr 1
      refine List.ext_getElem (by rw [List.length_set]; omega) fun j hj1 hj2 => ?_
      rw [List.getElem_set]
      split
      · rename_i hij
        subst hij
        exact Prod.ext (by rw [e1, fieldC_name]) rfl
      · rename_i hij
        have hjl : j < ds.length := by rw [List.length_set] at hj2; exact hj2
        have hjf : j < (fieldsC fs).length := by omega
        obtain ⟨a1, a2⟩ := gi' j _ _ (List.getElem?_eq_getElem hjf) (List.getElem?_eq_getElem hj1)
        obtain ⟨b1, b2⟩ := gi j _ _ (List.getElem?_eq_getElem hjf) (List.getElem?_eq_getElem hjl)
        refine Prod.ext (a1.trans b1.symm) ?_
        exact unique _ _ _ ((others j _ (List.getElem?_eq_getElem hjf) (Ne.symm hij) _).1 a2) b2
    · rintro ⟨y, hy, rfl⟩
      refine ⟨fun hb k' z hz => ?_, _, rfl, ?_⟩
      · by_cases hkk : k' = k
        · subst hkk; exact ⟨_, hFm, hkF⟩
        · rw [hrest k' hkk] at hz; exact hdeny hb k' z hz
      · refine forall2_of_index (by rw [List.length_set]; exact gl) fun j F nd hF' hnd => ?_
        rw [List.getElem?_set] at hnd
        split at hnd
        · rename_i hij
          subst hij
          rw [hF] at hF'
          cases hF'
          cases hnd
          exact ⟨(fieldC_name f).symm, (own y).2 hy⟩
        · rename_i hij
          obtain ⟨a1, a2⟩ := gi j F nd hF' hnd
          exact ⟨a1, (others j F hF' (Ne.symm hij) _).2 a2⟩

/-! ## Panics -/

/-- The types without checks inside do not panic. -/
inductive Tame : CTy → Prop
  | plain {dec : Decoder} : (∀ v, dec v ≠ .panic) → Tame (.plain dec)
  | option {t} : Tame t → Tame (.option t)
  | newtype {t} : Tame t → Tame (.newtype t)
  | seq {t} : Tame t → Tame (.seq t)
  | tuple {ts} : (∀ t ∈ ts, Tame t) → Tame (.tuple ts)
  | map {k t} : Tame t → Tame (.map k t)
  | struct {deny fs} : (∀ f ∈ fs, Tame (Prod.snd f)) → Tame (.struct deny fs)
  | tryFrom {conv t} : Tame t → Tame (.tryFrom conv t)

theorem missing_calm (n : String) (t : CTy) : missingC n t ≠ .panic := by
  match t with
  | .option t => rw [missingC]; intro h; cases h
  | .tryFrom conv t =>
    rw [missingC, ne_eq, bind_eq_panic]
    rintro (h | ⟨raw, -, h⟩)
    · exact missing_calm n t h
    · split at h <;> cases h
  | .plain _ => simp [missingC]
  | .newtype _ => simp [missingC]
  | .seq _ => simp [missingC]
  | .tuple _ => simp [missingC]
  | .map _ _ => simp [missingC]
  | .struct _ _ => simp [missingC]

/-- **C131**, no panic: reading such a type from any value ends with a value or an error, if the types without checks inside do. -/
theorem C131_no_panic (T : CTy) (hT : Tame T) (v : Value) : deC T v ≠ .panic := by
  induction hT generalizing v with
  | plain h => rw [deC]; exact h v
  | option _ ih =>
    cases v with
    | none => rw [deC]; intro h; cases h
    | _ =>
      rw [deC]
      · rw [ne_eq, bind_eq_panic]
        rintro (h | ⟨x, -, h⟩)
        · exact ih _ h
        · cases h
      · intro e; cases e
  | newtype _ ih =>
    rw [deC, ne_eq, bind_eq_panic]
    rintro (h | ⟨x, -, h⟩)
    · exact ih _ h
    · cases h
  | seq _ ih =>
    cases v with
    | array xs =>
      rw [deC, ne_eq, bind_eq_panic]
      rintro (h | ⟨x, -, h⟩)
      · exact deVecLoop_noPanic _ _ (fun x _ => ih x) _ h
      · cases h
    | _ => simp [deC]
  | @tuple ts _ ih =>
    cases v with
    | array xs =>
      rw [deC, ne_eq, bind_eq_panic]
      rintro (h | ⟨x, -, h⟩)
      · refine deTupleLoop_noPanic _ _ _ _ (fun dec hdec x _ => ?_) h
        obtain ⟨j, hj⟩ := List.mem_iff_getElem?.1 hdec
        rw [decodersC_get] at hj
        cases ht : ts[j]? with
        | none => rw [ht] at hj; cases hj
        | some t => rw [ht] at hj; cases hj; exact ih t (List.mem_of_getElem? ht) x
      · cases h
    | _ => simp [deC]
  | map _ ih =>
    cases v with
    | map m =>
      rw [deC, ne_eq, bind_eq_panic]
      rintro (h | ⟨x, -, h⟩)
      · exact deMapLoop_noPanic _ _ _ (fun e _ => ih e.2) _ h
      · cases h
    | _ => simp [deC]
  | @struct deny fs _ ih =>
    rw [deC]
    refine (C90_nonmap_no_panic deny (fieldsC fs) v).2 fun F hF => ?_
    rw [fieldsC_map] at hF
    obtain ⟨f, hf, rfl⟩ := List.mem_map.1 hF
    refine ⟨fun x => by rw [fieldC_dec]; exact ih f hf x, ?_⟩
    rw [fieldC_missing]
    split
    · intro h; cases h
    · exact missing_calm _ _
  | tryFrom _ ih =>
    rw [deC]
    unfold deTryFrom
    rw [ne_eq, bind_eq_panic]
    rintro (h | ⟨x, -, h⟩)
    · exact ih _ h
    · split at h <;> cases h

/-! ## Written and read back -/

/-- A type with a check, read directly or from a buffer. -/
def checkedReader (conv : Data → Except String Data) (r : Reader) : Reader := ⟨deTryFrom conv r.direct, fun o => deTryFrom conv (r.buffered o)⟩

/-- **C131**, written and read back: a type that is written as the type it is made from (`#[serde(into)]`) is read back as what it was, wherever it stands, if the
conversion takes what its own values are turned into. -/
theorem C131_kept (how : How) (conv : Data → Except String Data) (r : Reader) (c raw d : Data) (h : Kept how r c raw) (hc : conv raw = .ok d) :
    Kept how (checkedReader conv r) c d := by
  obtain ⟨x, h1, h2⟩ := h
  refine ⟨x, h1, ?_⟩
  cases how <;> exact deTryFrom_ok.2 ⟨raw, h2, hc⟩

/-- **C131**, the other way round: what is written and then refused by the check is not read back at all. -/
theorem C131_lost (how : How) (conv : Data → Except String Data) (r : Reader) (c raw : Data) (h : Kept how r c raw) (msg : String) (hc : conv raw = .error msg)
    (d : Data) : ¬ Kept how (checkedReader conv r) c d := by
  obtain ⟨x, h1, h2⟩ := h
  rintro ⟨y, g1, g2⟩
  rw [h1] at g1
  cases g1
  have : ∃ raw', readBy r how x = .ok raw' ∧ conv raw' = .ok d := by
    cases how <;> exact deTryFrom_ok.1 g2
  obtain ⟨raw', a1, a2⟩ := this
  rw [h2] at a1
  cases a1
  rw [hc] at a2
  cases a2

/-! ## Examples: a server with a port that is not 0, a list of such ports, and a limit that is made from an `Option` -/

/-- `impl TryFrom<u16> for Port`: 0 is refused. -/
def exPortCheck : Data → Except String Data
  | .int .u16 n => if n.1 = 0 then .error "port is 0" else .ok (.newtypeStruct (.int .u16 n))
  | _ => .error "not a number"
/-- `impl TryFrom<Option<u16>> for Limit`: `None` is refused. -/
def exLimitCheck : Data → Except String Data
  | .some d => .ok d
  | _ => .error "a limit is needed"
def exU16 : CTy := .plain (deAt (fun _ => []) 1 (.int .u16))
def exPort : CTy := .tryFrom exPortCheck exU16
def exServerFields : List (CField × CTy) :=
  [(⟨"port", ["Port"], false, some (.newtypeStruct (.int .u16 ⟨80, by decide⟩))⟩, exPort),
   (⟨"others", [], false, some (.seq [])⟩, .seq exPort),
   (⟨"limit", [], false, none⟩, .tryFrom exLimitCheck (.option exU16))]
def exServer : CTy := .struct false exServerFields

theorem exServer_honest : Honest exServer := by
  refine .struct (by decide) (by decide) ?_ ?_
  · intro f hf d hd
    simp only [exServerFields, List.mem_cons, List.not_mem_nil, or_false] at hf
    rcases hf with rfl | rfl | rfl
    · cases hd
      exact .tryFrom (raw := .int .u16 ⟨80, by decide⟩) (.plain _ _) rfl
    · cases hd
      exact .seq (by simp)
    · cases hd
  · intro f hf
    simp only [exServerFields, List.mem_cons, List.not_mem_nil, or_false] at hf
    rcases hf with rfl | rfl | rfl
    · exact .tryFrom (.plain _)
    · exact .seq (.tryFrom (.plain _))
    · exact .tryFrom (.option (.plain _))

def exServerValue : Value := .map [("Port", .integer ⟨8080, by decide⟩), ("others", .array [.string "81"]), ("limit", .integer ⟨5, by decide⟩)]
def exServerRead : List (String × Data) :=
  [("port", .newtypeStruct (.int .u16 ⟨8080, by decide⟩)), ("others", .seq [.newtypeStruct (.int .u16 ⟨81, by decide⟩)]), ("limit", .int .u16 ⟨5, by decide⟩)]
theorem exServer_unique : UniqueKeys exServerValue := by simp [exServerValue, UniqueKeys, UniqueKeysMap, UniqueKeysEntry, UniqueKeysList]
theorem exServer_reads : deC exServer exServerValue = .ok (.struct exServerRead) := by rfl

/-- What was read has passed. -/
example : Passed exServer (.struct exServerRead) := C131_passed exServer exServer_honest exServerValue exServer_unique _ exServer_reads
/-- A struct with a port 0 deep inside has not passed, so it is read from nothing. -/
example (v : Value) (hv : UniqueKeys v) (n : IntOf .u16) (hn : n.1 = 0) (a b : String × Data) :
    deC exServer v ≠ .ok (.struct [a, ("others", .seq [.newtypeStruct (.int .u16 n)]), b]) := by
  intro h
  have := C131_passed exServer exServer_honest v hv _ h
  cases this with
  | struct _ _ h2 =>
    have h3 := h2 1 _ _ rfl rfl
    cases h3 with
    | seq h4 =>
      have h5 := h4 _ (List.mem_singleton.2 rfl)
      cases h5 with
      | @tryFrom _ _ raw _ _ hc =>
        cases raw with
        | int t m =>
          cases t <;> simp [exPortCheck] at hc
          split at hc
          · cases hc
          · rename_i hm
            cases hc
            exact hm hn
        | _ => cases hc
/-- Port 0 is refused with the check's message, text is refused by `u16` itself. -/
example : deC exPort (.string "0") = .err (.deserializationError "port is 0") := (C131_checked exPortCheck exU16 (.string "0")).2.1 _ _ rfl rfl
example : ∃ e, deC exU16 (.string "x") = .err e ∧ deC exPort (.string "x") = .err e := ⟨_, rfl, (C131_checked exPortCheck exU16 (.string "x")).2.2 _ rfl⟩
/-- An optional port 0 is an error, not `None`; one bad port in a list spoils the list. -/
example (d : Data) : deC (.option exPort) (.string "0") ≠ .ok d := by
  rw [ne_eq, (C131_inside exPort).2.1 (.string "0") d (by simp)]
  rintro ⟨x, h, -⟩
  cases h
example (d : Data) : deC (.seq exPort) (.array [.string "1", .string "0"]) ≠ .ok d := by
  rw [ne_eq, (C131_inside exPort).2.2.2.1]
  rintro ⟨xs, ys, e, h, -⟩
  cases e
  obtain ⟨y, -, h⟩ := forall2_left h (.string "0") (by simp)
  cases h
/-- Without a limit the check sees `None`: it refuses, so nothing that lacks a limit is read as a server. -/
example (ds : List (String × Data)) : deC exServer (.map [("port", .integer ⟨1, by decide⟩)]) ≠ .ok (.struct ds) := by
  intro h
  obtain ⟨d, -, hc⟩ := (C131_absent false exServerFields exServer_honest _ (by simp [UniqueKeys, UniqueKeysMap, UniqueKeysEntry]) ds h 2 _ exLimitCheck _ rfl rfl
    (by decide)).1 _ rfl
  cases hc
/-- With an `Option` inside and a check that takes `None`, the field is what the check makes of it. -/
example : ∃ ds, deC (.struct true [(⟨"limit", [], false, none⟩, .tryFrom (fun d => match d with | .none => .ok (.bool false) | d => .ok d) (.option exU16))]) (.map []) =
    .ok (.struct ds) ∧ ds = [("limit", .bool false)] := ⟨_, rfl, rfl⟩

/-- Two layers: the server and a port on top. -/
def exServerCalls : List RegCall := [.memory "low" exServerValue, .memory "mid" (.map [("extra", .none)])]
theorem exServer_proper : ∀ e ∈ firsts (offers exB1 exFormats exServerCalls), Proper e.2 := by
  intro e he
  obtain ⟨c, hc, ho⟩ := List.mem_filterMap.1 (mem_firsts he)
  simp only [exServerCalls, List.mem_cons, List.not_mem_nil, or_false] at hc
  apply C08_builtin_proper exB1 exFormats c e _ _ ho
  · rcases hc with rfl | rfl <;> trivial
  · rcases hc with rfl | rfl <;> intro n v hv <;> cases hv
    · exact exServer_unique
    · simp [UniqueKeys, UniqueKeysMap, UniqueKeysEntry]
def exServerBuilt : Value := exServerValue.merge (.map [("extra", .none)])
theorem exServer_built : (register exB1 exFormats exServerCalls).buildValue exDisk false = .ok exServerBuilt := by rfl
example : Passed exServer (.struct exServerRead) :=
  C131_config exB1 exFormats exServerCalls exDisk false exServerBuilt exServer_built exServer_proper exServer exServer_honest _ (by rfl)

theorem exServer_new : ∀ a ∈ offers exB1 exFormats exServerCalls, a.1 ≠ "top" := by
  intro a ha
  have := List.mem_map_of_mem (f := Prod.fst) ha
  have e : (offers exB1 exFormats exServerCalls).map Prod.fst = ["low", "mid"] := by rfl
  rw [e] at this; intro h; rw [h] at this; revert this; decide
/-- Put a port on top: 9 is taken (and only the port changes), 0 is refused although there is a port below and a default. -/
example : ∃ v', (register exB1 exFormats (exServerCalls ++ [.memory "top" (.map [("Port", .integer ⟨9, by decide⟩)])])).buildValue exDisk false = .ok v' ∧
    deC exServer v' = .ok (.struct (exServerRead.set 0 ("port", .newtypeStruct (.int .u16 ⟨9, by decide⟩)))) := by
  obtain ⟨v', h1, h2⟩ := C131_override exB1 exFormats exServerCalls exDisk false exServerBuilt exServer_built exServer_proper false exServerFields exServer_honest
    exServerRead (by rfl) 0 _ rfl "Port" (by decide)
    (by intro k' hk' hne; simp [fieldKeys] at hk'; rcases hk' with rfl | rfl
        · rfl
        · exact (hne rfl).elim) "top" exServer_new (.integer ⟨9, by decide⟩) trivial rfl
  exact ⟨v', h1, (h2 _).2 ⟨_, rfl, rfl⟩⟩
example (v : Value) (h : (register exB1 exFormats (exServerCalls ++ [.memory "top" (.map [("Port", .integer ⟨0, by decide⟩)])])).buildValue exDisk false = .ok v)
    (d : Data) : deC exServer v ≠ .ok d := by
  refine C131_refused exB1 exFormats _ exDisk false v h ?_ false exServerFields exServer_honest _ List.mem_cons_self "Port" (by decide)
    [.integer ⟨8080, by decide⟩] (.integer ⟨0, by decide⟩) (by rfl) rfl ?_ d
  · intro e he
    obtain ⟨c, hc, ho⟩ := List.mem_filterMap.1 (mem_firsts he)
    simp only [exServerCalls, List.cons_append, List.nil_append, List.mem_cons, List.not_mem_nil, or_false] at hc
    apply C08_builtin_proper exB1 exFormats c e _ _ ho
    · rcases hc with rfl | rfl | rfl <;> trivial
    · rcases hc with rfl | rfl | rfl <;> intro n v hv <;> cases hv
      · exact exServer_unique
      · simp [UniqueKeys, UniqueKeysMap, UniqueKeysEntry]
      · simp [UniqueKeys, UniqueKeysMap, UniqueKeysEntry]
  · intro y hy; cases hy

/-- `C131_no_panic` holds for the server. -/
example (v : Value) : deC exServer v ≠ .panic := by
  have h16 : Tame exU16 := .plain fun v => by
    rw [deAt, de, ne_eq, bind_eq_panic]
    rintro (h | ⟨n, -, h⟩)
    · exact deInt_noPanic .u16 v h
    · cases h
  refine C131_no_panic exServer (.struct ?_) v
  intro f hf
  simp only [exServerFields, List.mem_cons, List.not_mem_nil, or_false] at hf
  rcases hf with rfl | rfl | rfl
  · exact .tryFrom h16
  · exact .seq (.tryFrom h16)
  · exact .tryFrom (.option h16)

/-- A port is written as its number and read back, alone and in a list. -/
example (how : How) : Kept how (checkedReader exPortCheck (Reader.int .u16)) (.int .u16 ⟨8080, by decide⟩) (.newtypeStruct (.int .u16 ⟨8080, by decide⟩)) :=
  C131_kept how exPortCheck (Reader.int .u16) _ _ _ ((C98_scalars how).2.1 .u16 _ ⟨by decide, by decide⟩) rfl
example (how : How) (d : Data) : ¬ Kept how (checkedReader exPortCheck (Reader.int .u16)) (.int .u16 ⟨0, by decide⟩) d :=
  C131_lost how exPortCheck (Reader.int .u16) _ _ ((C98_scalars how).2.1 .u16 _ ⟨by decide, by decide⟩) "port is 0" rfl d

end Verif.Props
