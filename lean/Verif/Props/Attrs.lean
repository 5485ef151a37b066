import Verif.Spec.Attrs
import Verif.Props.EndToEnd
/-!
# Structs with serde attributes (C90)
-/
namespace Verif.Props
open Spec

/-! ## The key decides the field -/

theorem owner_eq {fs : List AttrField} (hk : (fs.flatMap readFrom).Nodup) {f g : AttrField} (hf : f ∈ fs) (hg : g ∈ fs)
    {k : String} (h1 : k ∈ readFrom f) (h2 : k ∈ readFrom g) : f = g := by
  induction fs with
  | nil => cases hf
  | cons a r ih =>
    rw [List.flatMap_cons, List.nodup_append] at hk
    obtain ⟨-, hr, hd⟩ := hk
    have no : ∀ x ∈ r, k ∈ readFrom a → k ∈ readFrom x → False := fun x hx h h' =>
      hd k h k (List.mem_flatMap.2 ⟨x, hx, h'⟩) rfl
    rcases List.mem_cons.1 hf with rfl | hf' <;> rcases List.mem_cons.1 hg with rfl | hg'
    · rfl
    · exact (no g hg' h1 h2).elim
    · exact (no f hf' h2 h1).elim
    · exact ih hr hf' hg'

theorem name_eq {fs : List AttrField} (hn : (fs.map AttrField.name).Nodup) {f g : AttrField} (hf : f ∈ fs) (hg : g ∈ fs)
    (h : f.name = g.name) : f = g := by
  induction fs with
  | nil => cases hf
  | cons a r ih =>
    simp only [List.map_cons, List.nodup_cons] at hn
    rcases List.mem_cons.1 hf with rfl | hf' <;> rcases List.mem_cons.1 hg with rfl | hg'
    · rfl
    · exact (hn.1 (h ▸ List.mem_map.2 ⟨g, hg', rfl⟩)).elim
    · exact (hn.1 (h ▸ List.mem_map.2 ⟨f, hf', rfl⟩)).elim
    · exact ih hn.2 hf' hg'

theorem keys_readFrom (f : AttrField) : f.keys = readFrom f := by
  unfold AttrField.keys readFrom
  cases f.skip <;> rfl

theorem owner_find {fs : List AttrField} {k : String} {f : AttrField}
    (h : fs.find? (fun f => f.keys.contains k) = some f) : f ∈ fs ∧ k ∈ readFrom f := by
  simp only [keys_readFrom] at h
  exact ⟨List.mem_of_find?_eq_some h, by simpa using List.find?_some h⟩

theorem owner_none {fs : List AttrField} {k : String}
    (h : fs.find? (fun f => f.keys.contains k) = none) : ∀ f ∈ fs, k ∉ readFrom f := by
  intro f hf hk
  simp only [keys_readFrom] at h
  have := List.find?_eq_none.1 h f hf
  simp [hk] at this

/-! ## The loop -/

theorem attrLoop_facts (deny : Bool) {fs : List AttrField} (hd : AttrsDistinct fs) (m : Entries) : ∀ (acc acc' : List (String × Data)),
    deAttrLoop deny fs acc m = .ok acc' →
    (∀ f ∈ fs, ∀ e ∈ m, e.1 ∈ readFrom f → hmGet acc f.name = none ∧ (∃ d, f.dec e.2 = .ok d ∧ hmGet acc' f.name = some d) ∧
      ∀ e' ∈ m, e'.1 ∈ readFrom f → e' = e) ∧
    (∀ f ∈ fs, (∀ e ∈ m, e.1 ∉ readFrom f) → hmGet acc' f.name = hmGet acc f.name) ∧
    (deny = true → ∀ e ∈ m, ∃ f ∈ fs, e.1 ∈ readFrom f) := by
  induction m with
  | nil =>
    intro acc acc' h
    simp only [deAttrLoop, Outcome.ok.injEq] at h
    subst h
    exact ⟨by simp, by simp, by simp⟩
  | cons e0 r ih =>
    intro acc acc' h
    obtain ⟨k0, v0⟩ := e0
    rw [deAttrLoop, string_self, Outcome.bind_ok] at h
    split at h
    · rename_i f0 hf0
      obtain ⟨m0, o0⟩ := owner_find hf0
      split at h
      · cases h
      · rename_i hnone
        have hnone : hmGet acc f0.name = none := by simpa using hnone
        rw [bind_eq_ok] at h
        obtain ⟨d0, hd0, h⟩ := h
        obtain ⟨i1, i2, i3⟩ := ih _ _ h
        have noR : ∀ e ∈ r, e.1 ∉ readFrom f0 := by
          intro e he hk
          have := (i1 f0 m0 e he hk).1
          rw [hmGet_insert, if_pos rfl] at this
          cases this
        refine ⟨?_, ?_, ?_⟩
        · intro f hf e he hk
          rcases List.mem_cons.1 he with rfl | he
          · have : f = f0 := owner_eq hd.2 hf m0 hk o0
            subst this
            refine ⟨hnone, ⟨d0, hd0, ?_⟩, ?_⟩
            · rw [i2 f hf noR, hmGet_insert, if_pos rfl]
            · intro e' he' hk'
              rcases List.mem_cons.1 he' with rfl | he'
              · rfl
              · exact (noR e' he' hk').elim
          · obtain ⟨j1, j2, j3⟩ := i1 f hf e he hk
            have hne : f0.name ≠ f.name := by
              intro eq
              rw [hmGet_insert, if_pos eq] at j1
              cases j1
            rw [hmGet_insert, if_neg hne] at j1
            refine ⟨j1, j2, ?_⟩
            intro e' he' hk'
            rcases List.mem_cons.1 he' with rfl | he'
            · exact absurd (congrArg AttrField.name (owner_eq hd.2 m0 hf o0 hk')) hne
            · exact j3 e' he' hk'
        · intro f hf hno
          have hne : f0.name ≠ f.name := by
            intro eq
            have := name_eq hd.1 m0 hf eq
            subst this
            exact hno (k0, v0) (by simp) o0
          rw [i2 f hf (fun e he => hno e (by simp [he])), hmGet_insert, if_neg hne]
        · intro hdeny e he
          rcases List.mem_cons.1 he with rfl | he
          · exact ⟨f0, m0, o0⟩
          · exact i3 hdeny e he
    · rename_i hf0
      have hno := owner_none hf0
      split at h
      · cases h
      · rename_i hdeny
        rw [deIgnored_ok, Outcome.bind_ok] at h
        obtain ⟨i1, i2, i3⟩ := ih _ _ h
        refine ⟨?_, ?_, fun hd' => absurd hd' hdeny⟩
        · intro f hf e he hk
          rcases List.mem_cons.1 he with rfl | he
          · exact (hno f hf hk).elim
          · obtain ⟨j1, j2, j3⟩ := i1 f hf e he hk
            refine ⟨j1, j2, ?_⟩
            intro e' he' hk'
            rcases List.mem_cons.1 he' with rfl | he'
            · exact (hno f hf hk').elim
            · exact j3 e' he' hk'
        · intro f hf hn
          exact i2 f hf (fun e he => hn e (by simp [he]))

theorem attrLoop_exists (deny : Bool) {fs : List AttrField} (hd : AttrsDistinct fs) (m : Entries) : ∀ (acc : List (String × Data)),
    (m.map Prod.fst).Nodup →
    (∀ f ∈ fs, ∀ e ∈ m, e.1 ∈ readFrom f → hmGet acc f.name = none ∧ (∃ d, f.dec e.2 = .ok d) ∧
      ∀ e' ∈ m, e'.1 ∈ readFrom f → e' = e) →
    (deny = true → ∀ e ∈ m, ∃ f ∈ fs, e.1 ∈ readFrom f) →
    ∃ acc', deAttrLoop deny fs acc m = .ok acc' := by
  induction m with
  | nil => intro acc _ _ _; exact ⟨acc, rfl⟩
  | cons e0 r ih =>
    intro acc hn h hdeny
    obtain ⟨k0, v0⟩ := e0
    simp only [List.map_cons, List.nodup_cons] at hn
    rw [deAttrLoop, string_self, Outcome.bind_ok]
    split
    · rename_i f0 hf0
      obtain ⟨m0, o0⟩ := owner_find hf0
      obtain ⟨h1, ⟨d, h2⟩, h3⟩ := h f0 m0 (k0, v0) (by simp) o0
      simp only [h1, Option.isSome_none, Bool.false_eq_true, if_false, h2, Outcome.bind_ok]
      refine ih _ hn.2 ?_ (fun hd' e he => hdeny hd' e (by simp [he]))
      intro f hf e he hk
      obtain ⟨j1, j2, j3⟩ := h f hf e (by simp [he]) hk
      have hne : f0.name ≠ f.name := by
        intro eq
        have := name_eq hd.1 m0 hf eq
        subst this
        have := h3 e (by simp [he]) hk
        subst this
        exact hn.1 (List.mem_map.2 ⟨_, he, rfl⟩)
      refine ⟨by rw [hmGet_insert, if_neg hne]; exact j1, j2, fun e' he' => j3 e' (by simp [he'])⟩
    · rename_i hf0
      have hno := owner_none hf0
      have hdf : deny = false := by
        cases hb : deny with
        | false => rfl
        | true =>
          obtain ⟨f, hf, hk⟩ := hdeny hb (k0, v0) (by simp)
          exact (hno f hf hk).elim
      rw [hdf, if_neg (by simp), deIgnored_ok, Outcome.bind_ok, ← hdf]
      refine ih _ hn.2 ?_ (fun hd' e he => hdeny hd' e (by simp [he]))
      intro f hf e he hk
      obtain ⟨j1, j2, j3⟩ := h f hf e (by simp [he]) hk
      exact ⟨j1, j2, fun e' he' => j3 e' (by simp [he'])⟩

theorem attrFinish_ok (acc : List (String × Data)) (fs : List AttrField) : ∀ ds,
    deAttrFinish acc fs = .ok ds ↔
    List.Forall₂ (fun f nd => nd.1 = f.name ∧
      (match hmGet acc f.name with | some d => Outcome.ok d | none => f.missing) = .ok nd.2) fs ds := by
  induction fs with
  | nil => intro ds; simp [deAttrFinish, eq_comm]
  | cons f r ih =>
    intro ds
    rw [deAttrFinish]
    simp only [bind_eq_ok, ih, List.forall₂_cons_left_iff]
    constructor
    · rintro ⟨d, hd, ds', h, h'⟩
      cases h'
      exact ⟨(f.name, d), ds', ⟨rfl, hd⟩, h, rfl⟩
    · rintro ⟨⟨n, d⟩, ds', ⟨hn, hd⟩, h, rfl⟩
      cases hn
      exact ⟨d, hd, ds', h, rfl⟩

theorem child_mem {m : Entries} (hn : (m.map Prod.fst).Nodup) {k : String} {x : Value} :
    child (.map m) (.key k) = some x ↔ (k, x) ∈ m := by
  rw [child_key_map]
  exact ⟨fun h => hmGet_mem h, fun h => hmGet_of_mem hn h⟩

/-- **C90.** A struct with attributes, read from a map: it succeeds exactly if every field gets something and, where unknown fields are denied,
every key of the map is one of the fields' keys; the result holds just what each field gets. -/
theorem C90_exact (deny : Bool) (fs : List AttrField) (hd : AttrsDistinct fs) (v : Value) (hv : UniqueKeys v) (hm : v.isMap = true)
    (d : Data) :
    deAttrs deny fs v = .ok d ↔
    (deny = true → ∀ k x, child v (.key k) = some x → ∃ f ∈ fs, k ∈ readFrom f) ∧
    ∃ ds : List (String × Data), d = .struct ds ∧ List.Forall₂ (fun f nd => nd.1 = f.name ∧ FieldGets v f nd.2) fs ds := by
  cases v with
  | map m =>
    have hn := (uniqueKeys_map.1 hv).1
    simp only [deAttrs, bind_eq_ok]
    constructor
    · rintro ⟨acc, h1, ds, h2, h3⟩
      cases h3
      obtain ⟨i1, i2, i3⟩ := attrLoop_facts deny hd m [] acc h1
      refine ⟨fun hdeny k x hx => i3 hdeny (k, x) ((child_mem hn).1 hx), ds, rfl, ?_⟩
      rw [attrFinish_ok] at h2
      refine forall2_of_index (forall2_index h2).1 ?_
      intro i f nd hfi hnd
      obtain ⟨e1, e2⟩ := (forall2_index h2).2 i f nd hfi hnd
      refine ⟨e1, ?_⟩
      have hf := List.mem_of_getElem? hfi
      by_cases hex : ∃ e ∈ m, e.1 ∈ readFrom f
      · obtain ⟨⟨k, x⟩, he, hk⟩ := hex
        obtain ⟨-, ⟨y, j2, j2'⟩, j3⟩ := i1 f hf (k, x) he hk
        rw [j2'] at e2
        cases e2
        refine .read k x hk ((child_mem hn).2 he) ?_ j2
        intro k' hk' hc
        obtain ⟨x', hx'⟩ := Option.ne_none_iff_exists'.1 hc
        have := j3 (k', x') ((child_mem hn).1 hx') hk'
        exact congrArg Prod.fst this
      · have hno : ∀ e ∈ m, e.1 ∉ readFrom f := fun e he hk => hex ⟨e, he, hk⟩
        rw [i2 f hf hno] at e2
        refine .absent ?_ e2
        intro k hk
        cases hc : child (.map m) (.key k) with
        | none => rfl
        | some x => exact (hno (k, x) ((child_mem hn).1 hc) hk).elim
    · rintro ⟨hdeny, ds, rfl, h⟩
      have gets : ∀ f ∈ fs, ∀ e ∈ m, e.1 ∈ readFrom f → ∃ nd ∈ ds, nd.1 = f.name ∧ f.dec e.2 = .ok nd.2 ∧ ∀ e' ∈ m, e'.1 ∈ readFrom f → e' = e := by
        intro f hf e he hk
        obtain ⟨nd, hnd, hname, hg⟩ := forall2_left h f hf
        refine ⟨nd, hnd, hname, ?_⟩
        cases hg with
        | read k x hk0 hx only hdec =>
          have he' := (child_mem hn).2 (show (e.1, e.2) ∈ m from he)
          have ek : e.1 = k := only e.1 hk (by rw [he']; simp)
          rw [ek, hx] at he'
          have ex : x = e.2 := by simpa using he'
          rw [← ex]
          refine ⟨hdec, fun e' he'' hk' => ?_⟩
          have h2 := (child_mem hn).2 (show (e'.1, e'.2) ∈ m from he'')
          have ek' : e'.1 = k := only e'.1 hk' (by rw [h2]; simp)
          rw [ek', hx] at h2
          have ex' : x = e'.2 := by simpa using h2
          exact Prod.ext (ek'.trans ek.symm) (ex'.symm.trans ex)
        | absent hnone _ =>
          have := (child_mem hn).2 (show (e.1, e.2) ∈ m from he)
          rw [hnone e.1 hk] at this
          cases this
      obtain ⟨acc, ha⟩ := attrLoop_exists deny hd m [] hn
        (fun f hf e he hk => by
          obtain ⟨nd, -, -, g1, g2⟩ := gets f hf e he hk
          exact ⟨by simp [hmGet], ⟨_, g1⟩, g2⟩)
        (fun hb e he => hdeny hb e.1 e.2 ((child_mem hn).2 he))
      refine ⟨acc, ha, ds, ?_, rfl⟩
      obtain ⟨i1, i2, -⟩ := attrLoop_facts deny hd m [] acc ha
      rw [attrFinish_ok]
      refine forall2_of_index (forall2_index h).1 ?_
      intro i f nd hfi hnd
      obtain ⟨e1, hg⟩ := (forall2_index h).2 i f nd hfi hnd
      refine ⟨e1, ?_⟩
      have hf := List.mem_of_getElem? hfi
      cases hg with
      | read k x hk hx only hdec =>
        obtain ⟨-, ⟨y, j2, j2'⟩, -⟩ := i1 f hf (k, x) ((child_mem hn).1 hx) hk
        rw [j2']
        rw [hdec] at j2
        cases j2
        rfl
      | absent hnone hmiss =>
        rw [i2 f hf]
        · exact hmiss
        · intro e he hk
          have := (child_mem hn).2 (show (e.1, e.2) ∈ m from he)
          rw [hnone e.1 hk] at this
          cases this
  | _ => cases hm

/-- **C90.** Without attributes this is the plain derived struct. -/
theorem C90_plain (structs : Nat → List (String × Ty)) (k : Nat) (fs : List (String × Ty)) (v : Value) :
    deAttrs false (fs.map fun f => ⟨f.1, [], false, deAt structs k f.2, missingField f.1 f.2⟩) v = deAt structs k (.struct fs) v := by
  show _ = de (refsAt structs k) (.struct fs) v
  rw [de, fieldDecoders_eq]
  generalize hfds : (fs.map fun f => (⟨f.1, de (refsAt structs k) f.2, missingField f.1 f.2⟩ : FieldDec)) = fds
  have e : (fs.map fun f => (⟨f.1, [], false, deAt structs k f.2, missingField f.1 f.2⟩ : AttrField)) =
      fds.map fun fd => ⟨fd.name, [], false, fd.dec, fd.missing⟩ := by
    rw [← hfds, List.map_map]; rfl
  rw [e]
  have hfind : ∀ (fds : List FieldDec) (k : String),
      (fds.map fun fd => (⟨fd.name, [], false, fd.dec, fd.missing⟩ : AttrField)).find? (fun f => (readFrom f).contains k) =
        (fds.find? fun fd => fd.name == k).map fun fd => ⟨fd.name, [], false, fd.dec, fd.missing⟩ := by
    intro fds k
    induction fds with
    | nil => rfl
    | cons fd r ih =>
      have hp : (readFrom ⟨fd.name, [], false, fd.dec, fd.missing⟩).contains k = (fd.name == k) := by
        unfold readFrom
        simp only [List.contains_cons, List.contains_nil, Bool.or_false]
        by_cases h : fd.name = k
        · subst h; simp
        · rw [beq_eq_false_iff_ne.2 h, beq_eq_false_iff_ne.2 (Ne.symm h)]
      rw [List.map_cons, List.find?_cons, List.find?_cons, hp, ih]
      cases fd.name == k <;> rfl
  have hloop : ∀ (m : Entries) acc,
      deAttrLoop false (fds.map fun fd => ⟨fd.name, [], false, fd.dec, fd.missing⟩) acc m = deStructLoop fds acc m := by
    intro m
    induction m with
    | nil => intro acc; rfl
    | cons e r ih =>
      intro acc
      obtain ⟨k, x⟩ := e
      rw [deAttrLoop, deStructLoop, string_self, Outcome.bind_ok, Outcome.bind_ok]
      simp only [keys_readFrom]
      rw [hfind]
      cases hf : fds.find? (fun fd => fd.name == k) with
      | none => simp only [Option.map_none, Bool.false_eq_true, if_false, ih]
      | some fd =>
        have hname : fd.name = k := by simpa using List.find?_some hf
        simp only [Option.map_some, hname, ih]
  have hfin : ∀ (fds : List FieldDec) acc,
      deAttrFinish acc (fds.map fun fd => ⟨fd.name, [], false, fd.dec, fd.missing⟩) = deStructFinish acc fds := by
    intro fds acc
    induction fds with
    | nil => rfl
    | cons fd r ih => rw [List.map_cons, deAttrFinish, deStructFinish, ih]; rfl
  cases v <;> simp only [deAttrs, deStruct, hloop, hfin]

/-- **C90.** What is no map is never read as a struct; nothing panics unless a field's own type or default does. -/
theorem C90_nonmap_no_panic (deny : Bool) (fs : List AttrField) (v : Value) :
    (v.isMap = false → deAttrs deny fs v = .err (.deserializationError ("Can't deserialize " ++ v.display ++ " to Map"))) ∧
    ((∀ f ∈ fs, (∀ x, f.dec x ≠ .panic) ∧ f.missing ≠ .panic) → deAttrs deny fs v ≠ .panic) := by
  constructor
  · intro hm
    cases v with
    | map m => cases hm
    | _ =>
      simp only [deAttrs, cannot, Outcome.err.injEq, ModelError.deserializationError.injEq, String.append_assoc]
      rfl
  · intro h
    have hfin : ∀ (gs : List AttrField) acc, (∀ f ∈ gs, f.missing ≠ .panic) → deAttrFinish acc gs ≠ .panic := by
      intro gs acc
      induction gs with
      | nil => intro _; simp [deAttrFinish]
      | cons f r ih =>
        intro h
        rw [deAttrFinish, ne_eq]
        simp only [bind_eq_panic]
        rintro (h1 | ⟨a, _, h1 | ⟨_, _, h1⟩⟩)
        · split at h1
          · cases h1
          · exact h _ List.mem_cons_self h1
        · exact ih (fun f hf => h f (List.mem_cons_of_mem _ hf)) h1
        · cases h1
    have hloop : ∀ (m : Entries) acc, deAttrLoop deny fs acc m ≠ .panic := by
      intro m
      induction m with
      | nil => intro acc; simp [deAttrLoop]
      | cons e r ih =>
        intro acc
        obtain ⟨k, x⟩ := e
        rw [deAttrLoop, string_self, Outcome.bind_ok]
        split
        · rename_i f hf
          split
          · simp
          · rw [ne_eq, bind_eq_panic]
            rintro (h1 | ⟨a, _, h1⟩)
            · exact (h f (List.mem_of_find?_eq_some hf)).1 _ h1
            · exact ih _ h1
        · split
          · simp
          · rw [deIgnored_ok, Outcome.bind_ok]; exact ih _
    cases v with
    | map m =>
      simp only [deAttrs, ne_eq, bind_eq_panic]
      rintro (h1 | ⟨a, _, h1 | ⟨_, _, h1⟩⟩)
      · exact hloop _ _ h1
      · exact hfin _ _ (fun f hf => (h f hf).2) h1
      · cases h1
    | _ => simp [deAttrs]

/-- **C90.** Only what is under the fields' keys matters (where unknown fields are not denied), and never the order of the entries. -/
theorem C90_own_keys (fs : List AttrField) (hd : AttrsDistinct fs) (v v' : Value) (hv : UniqueKeys v) (hv' : UniqueKeys v')
    (hm : v.isMap = true) (hm' : v'.isMap = true) (h : ∀ f ∈ fs, ∀ k ∈ readFrom f, child v (.key k) = child v' (.key k)) (d : Data) :
    deAttrs false fs v = .ok d ↔ deAttrs false fs v' = .ok d := by
  have one : ∀ {v v' : Value}, (∀ f ∈ fs, ∀ k ∈ readFrom f, child v (.key k) = child v' (.key k)) →
      ∀ f ∈ fs, ∀ x, FieldGets v f x → FieldGets v' f x := by
    intro v v' h f hf x hg
    cases hg with
    | read k y hk hy only hdec =>
      exact .read k y hk (by rw [← h f hf k hk, hy]) (fun k' hk' hc => only k' hk' (by rw [h f hf k' hk']; exact hc)) hdec
    | absent hno hmiss => exact .absent (fun k hk => by rw [← h f hf k hk]; exact hno k hk) hmiss
  rw [C90_exact false fs hd v hv hm, C90_exact false fs hd v' hv' hm']
  refine and_congr (by simp) (exists_congr fun ds => and_congr_right fun _ => ?_)
  constructor
  · intro g
    refine forall2_of_index (forall2_index g).1 fun i f nd hf hn => ?_
    obtain ⟨e1, e2⟩ := (forall2_index g).2 i f nd hf hn
    exact ⟨e1, one h f (List.mem_of_getElem? hf) _ e2⟩
  · intro g
    refine forall2_of_index (forall2_index g).1 fun i f nd hf hn => ?_
    obtain ⟨e1, e2⟩ := (forall2_index g).2 i f nd hf hn
    exact ⟨e1, one (fun f hf k hk => (h f hf k hk).symm) f (List.mem_of_getElem? hf) _ e2⟩

/-! ## In a configuration -/

theorem overlay_isSome (xs : List Value) : ∀ a : Option Value, a.isSome = true ∨ xs ≠ [] → (xs.foldl overlay a).isSome = true := by
  induction xs with
  | nil => intro a h; simpa using h
  | cons x xs ih =>
    intro a _
    rw [List.foldl_cons]
    refine ih _ (Or.inl ?_)
    cases a with
    | none => rfl
    | some y => unfold overlay; simp only []; split <;> rfl

/-- A key is in the built value exactly if some layer holds it. -/
theorem child_built {b : Build} {fm : Formats} {calls : List RegCall} {w : World} {skip : Bool} {v : Value}
    (h : (register b fm calls).buildValue w skip = .ok v) (hp : ∀ e ∈ firsts (offers b fm calls), Proper e.2) (k : String) :
    child v (.key k) = none ↔ entriesAt w (firsts (offers b fm calls)) k = [] := by
  have key : child v (.key k) = (entriesAt w (firsts (offers b fm calls)) k).foldl overlay none := by
    rw [build_ok h, child_fold k _ hp Value.newMap rfl]; rfl
  constructor
  · intro hc
    refine Decidable.byContradiction fun hne => ?_
    have := overlay_isSome _ none (Or.inr hne)
    rw [← key, hc] at this
    cases this
  · intro he; rw [key, he]; rfl

/-- **C90**, defaults: a field none of whose keys any layer holds gets its default (or `missing_field`); a struct all of whose fields have defaults
and none of whose keys any layer holds is read as its defaults, whatever else the layers hold. -/
theorem C90_defaults (b : Build) (fm : Formats) (calls : List RegCall) (w : World) (skip : Bool) (v : Value)
    (h : (register b fm calls).buildValue w skip = .ok v) (hp : ∀ e ∈ firsts (offers b fm calls), Proper e.2)
    (fs : List AttrField) (hd : AttrsDistinct fs) :
    (∀ deny ds, deAttrs deny fs v = .ok (.struct ds) → ∀ (i : Nat) f nd, fs[i]? = some f → ds[i]? = some nd →
      (∀ k ∈ readFrom f, entriesAt w (firsts (offers b fm calls)) k = []) → f.missing = .ok nd.2) ∧
    (∀ ds : List (String × Data), List.Forall₂ (fun f nd => nd.1 = f.name ∧ f.missing = .ok nd.2) fs ds →
      (∀ f ∈ fs, ∀ k ∈ readFrom f, entriesAt w (firsts (offers b fm calls)) k = []) → deAttrs false fs v = .ok (.struct ds)) := by
  obtain ⟨hvm, hvu⟩ := C08_map b fm calls w skip v h
  have hvu := hvu hp
  constructor
  · intro deny ds hr i f nd hf hn hno
    obtain ⟨-, ds', e, g⟩ := (C90_exact deny fs hd v hvu hvm _).1 hr
    cases e
    cases ((forall2_index g).2 i f nd hf hn).2 with
    | read k x hk hx _ _ => rw [(child_built h hp k).2 (hno k hk)] at hx; cases hx
    | absent _ hm => exact hm
  · intro ds hds hno
    refine (C90_exact false fs hd v hvu hvm _).2 ⟨by simp, ds, rfl, ?_⟩
    refine forall2_of_index (forall2_index hds).1 fun i f nd hf hn => ?_
    obtain ⟨e1, e2⟩ := (forall2_index hds).2 i f nd hf hn
    exact ⟨e1, .absent (fun k hk => (child_built h hp k).2 (hno f (List.mem_of_getElem? hf) k hk)) e2⟩

/-- **C90**, aliases do not mix: if two layers (or one) hold a field under two different keys of it, the struct cannot be read from the
configuration at all, however the layers are ordered. -/
theorem C90_split_alias (b : Build) (fm : Formats) (calls : List RegCall) (w : World) (skip : Bool) (v : Value)
    (h : (register b fm calls).buildValue w skip = .ok v) (hp : ∀ e ∈ firsts (offers b fm calls), Proper e.2)
    (deny : Bool) (fs : List AttrField) (hd : AttrsDistinct fs) (f : AttrField) (hf : f ∈ fs) (k k' : String) (hk : k ∈ readFrom f)
    (hk' : k' ∈ readFrom f) (hne : k ≠ k') (h1 : entriesAt w (firsts (offers b fm calls)) k ≠ [])
    (h2 : entriesAt w (firsts (offers b fm calls)) k' ≠ []) (d : Data) : deAttrs deny fs v ≠ .ok d := by
  obtain ⟨hvm, hvu⟩ := C08_map b fm calls w skip v h
  intro hr
  obtain ⟨-, ds, -, g⟩ := (C90_exact deny fs hd v (hvu hp) hvm _).1 hr
  obtain ⟨nd, -, -, hg⟩ := forall2_left g f hf
  have c1 : child v (.key k) ≠ none := fun hc => h1 ((child_built h hp k).1 hc)
  have c2 : child v (.key k') ≠ none := fun hc => h2 ((child_built h hp k').1 hc)
  cases hg with
  | read q x _ _ only _ => exact hne ((only k hk c1).trans (only k' hk' c2).symm)
  | absent hno _ => exact c1 (hno k hk)

/-- **C90**, denied unknown fields: one key of one layer that is not a field's makes the reading fail; if there is none, denying changes nothing. -/
theorem C90_deny (b : Build) (fm : Formats) (calls : List RegCall) (w : World) (skip : Bool) (v : Value)
    (h : (register b fm calls).buildValue w skip = .ok v) (hp : ∀ e ∈ firsts (offers b fm calls), Proper e.2)
    (fs : List AttrField) (hd : AttrsDistinct fs) (d : Data) :
    deAttrs true fs v = .ok d ↔
      deAttrs false fs v = .ok d ∧ ∀ k, entriesAt w (firsts (offers b fm calls)) k ≠ [] → ∃ f ∈ fs, k ∈ readFrom f := by
  obtain ⟨hvm, hvu⟩ := C08_map b fm calls w skip v h
  rw [C90_exact true fs hd v (hvu hp) hvm, C90_exact false fs hd v (hvu hp) hvm]
  constructor
  · rintro ⟨h1, h2⟩
    refine ⟨⟨by simp, h2⟩, fun k hk => ?_⟩
    have c1 : child v (.key k) ≠ none := fun hc => hk ((child_built h hp k).1 hc)
    obtain ⟨x, hx⟩ := Option.ne_none_iff_exists'.1 c1
    exact h1 rfl k x hx
  · rintro ⟨⟨-, h2⟩, h3⟩
    refine ⟨fun _ k x hx => h3 k fun he => ?_, h2⟩
    rw [(child_built h hp k).2 he] at hx
    cases hx

/-! ## There and back -/

/-- **C90**, there and back: fields that are written come back as they are read back, fields left out come back as what they get when absent; denied
unknown fields and the order of the entries do not matter. (`skip_serializing_if` together with a `default` that gives the value left out loses nothing.) -/
theorem C90_roundtrip (deny : Bool) (fs : List AttrField) (hd : AttrsDistinct fs) (keep : String × Data → Bool) (xs ys : List (String × Data))
    (hx : List.Forall₂ (fun f x => x.1 = f.name ∧ (keep x = true → f.skip = false)) fs xs)
    (hy : List.Forall₂ (fun f y => y.1 = f.name) fs ys)
    (hxy : ∀ (i : Nat) f x y, fs[i]? = some f → xs[i]? = some x → ys[i]? = some y →
      (keep x = true → ∃ u, ser x.2 = .ok u ∧ f.dec u = .ok y.2) ∧ (keep x = false → f.missing = .ok y.2)) :
    ∃ v, serAttrs keep xs = .ok v ∧ UniqueKeys v ∧ v.isMap = true ∧
      ∀ v', UniqueKeys v' → v'.isMap = true → (∀ k, child v' (.key k) = child v (.key k)) → deAttrs deny fs v' = .ok (.struct ys) := by
  obtain ⟨lx, ix⟩ := forall2_index hx
  obtain ⟨ly, iy⟩ := forall2_index hy
  have hnames : xs.map Prod.fst = fs.map AttrField.name := by
    apply List.ext_getElem?
    intro i
    rw [List.getElem?_map, List.getElem?_map]
    cases hf : fs[i]? with
    | none =>
      have : xs[i]? = none := by
        rw [List.getElem?_eq_none_iff] at hf ⊢; omega
      rw [this]; rfl
    | some f =>
      obtain ⟨x, hx'⟩ := get_of_lt (show i < xs.length by rw [← lx]; exact lt_of_get hf)
      rw [hx']
      simp [(ix i f x hf hx').1]
  have hnd : ((xs.filter keep).map Prod.fst).Nodup := by
    have h0 : (xs.map Prod.fst).Nodup := by rw [hnames]; exact hd.1
    exact h0.sublist (List.filter_sublist.map _)
  have both : ∀ x ∈ xs, ∃ (i : Nat) (f : AttrField) (y : String × Data), fs[i]? = some f ∧ xs[i]? = some x ∧ ys[i]? = some y := by
    intro x hxm
    obtain ⟨i, hi⟩ := List.mem_iff_getElem?.1 hxm
    obtain ⟨f, hf⟩ := get_of_lt (show i < fs.length by rw [lx]; exact lt_of_get hi)
    obtain ⟨y, hy'⟩ := get_of_lt (show i < ys.length by rw [← ly]; exact lt_of_get hf)
    exact ⟨i, f, y, hf, hi, hy'⟩
  have hser : ∀ x ∈ xs.filter keep, ∃ u, ser x.2 = .ok u := by
    intro x hxm
    obtain ⟨h1, h2⟩ := List.mem_filter.1 hxm
    obtain ⟨i, f, y, hf, hi, hy'⟩ := both x h1
    obtain ⟨u, hu, -⟩ := (hxy i f x y hf hi hy').1 h2
    exact ⟨u, hu⟩
  obtain ⟨kvs, hkvs⟩ : ∃ kvs : Entries, List.Forall₂ (fun f kv => kv.1 = f.1 ∧ ser f.2 = .ok kv.2) (xs.filter keep) kvs := by
    clear hnd
    generalize xs.filter keep = zs at hser
    induction zs with
    | nil => exact ⟨[], .nil⟩
    | cons z zs ih =>
      obtain ⟨u, hu⟩ := hser z (by simp)
      obtain ⟨kvs, hk⟩ := ih (fun x hx => hser x (by simp [hx]))
      exact ⟨(z.1, u) :: kvs, .cons ⟨rfl, hu⟩ hk⟩
  have hkeys : kvs.map Prod.fst = (xs.filter keep).map Prod.fst := by
    clear hser hnd
    generalize xs.filter keep = zs at hkvs
    induction hkvs with
    | nil => rfl
    | cons h _ ih => simp [h.1, ih]
  have hkn : (kvs.map Prod.fst).Nodup := by rw [hkeys]; exact hnd
  have hser' : serAttrs keep xs = .ok (.map kvs) := by
    unfold serAttrs
    rw [ser_struct]
    exact ⟨kvs, hkvs, by rw [insAll_fresh kvs [] (by simpa using hkn)]; rfl⟩
  refine ⟨.map kvs, hser', uniqueKeys_ser _ _ hser', rfl, ?_⟩
  intro v' hu hm hc
  refine (C90_exact deny fs hd v' hu hm _).2 ⟨?_, ys, rfl, ?_⟩
  · intro _ k x hx'
    rw [hc, child_mem hkn] at hx'
    have hk : k ∈ (xs.filter keep).map Prod.fst := by rw [← hkeys]; exact List.mem_map.2 ⟨_, hx', rfl⟩
    obtain ⟨z, hz, rfl⟩ := List.mem_map.1 hk
    obtain ⟨h1, h2⟩ := List.mem_filter.1 hz
    obtain ⟨i, f, y, hf, hi, -⟩ := both z h1
    obtain ⟨g1, g2⟩ := ix i f z hf hi
    exact ⟨f, List.mem_of_getElem? hf, by simp [readFrom, g2 h2, g1]⟩
  · refine forall2_of_index ly fun i f y hf hy' => ⟨iy i f y hf hy', ?_⟩
    obtain ⟨x, hi⟩ := get_of_lt (show i < xs.length by rw [← lx]; exact lt_of_get hf)
    obtain ⟨g1, g2⟩ := ix i f x hf hi
    have hfm := List.mem_of_getElem? hf
    -- a key of the field that is in the map is the field's own name, and the field is kept
    have own : ∀ k ∈ readFrom f, ∀ z ∈ xs.filter keep, z.1 = k → z = x := by
      intro k hk z hz hzk
      obtain ⟨h1, h2⟩ := List.mem_filter.1 hz
      obtain ⟨j, f', y', hf', hj, -⟩ := both z h1
      obtain ⟨g1', g2'⟩ := ix j f' z hf' hj
      have : f' = f := owner_eq hd.2 (List.mem_of_getElem? hf') hfm (k := k)
        (by simp [readFrom, g2' h2, ← hzk, g1']) hk
      subst this
      have hij : j = i := by
        have n1 : (fs.map AttrField.name)[j]? = some f'.name := by simp [hf']
        have n2 : (fs.map AttrField.name)[i]? = some f'.name := by simp [hf]
        exact (List.getElem?_inj (by rw [List.length_map]; exact lt_of_get hf') hd.1).1 (n1.trans n2.symm)
      subst hij
      rw [hj] at hi
      exact Option.some.inj hi
    have memChild : ∀ k u, child v' (.key k) = some u → ∃ z ∈ xs.filter keep, z.1 = k ∧ ser z.2 = .ok u := by
      intro k u hcu
      rw [hc, child_mem hkn] at hcu
      obtain ⟨j, hj⟩ := List.mem_iff_getElem?.1 hcu
      obtain ⟨l1, i1⟩ := forall2_index hkvs
      obtain ⟨z, hz⟩ := get_of_lt (show j < (xs.filter keep).length by rw [l1]; exact lt_of_get hj)
      obtain ⟨a1, a2⟩ := i1 j z _ hz hj
      exact ⟨z, List.mem_of_getElem? hz, a1.symm, a2⟩
    cases hkeep : keep x with
    | true =>
      obtain ⟨u, hu', hdec⟩ := (hxy i f x y hf hi hy').1 hkeep
      have hxm : x ∈ xs.filter keep := List.mem_filter.2 ⟨List.mem_of_getElem? hi, hkeep⟩
      have hcx : child v' (.key x.1) = some u := by
        obtain ⟨kv, hkv, a1, a2⟩ := forall2_left hkvs x hxm
        rw [hc, child_mem hkn, ← a1]
        rw [hu'] at a2
        cases a2
        exact hkv
      refine .read x.1 u (by simp [readFrom, g2 hkeep, g1]) hcx ?_ hdec
      intro k hk hne
      obtain ⟨u', hu''⟩ := Option.ne_none_iff_exists'.1 hne
      obtain ⟨z, hz, hzk, -⟩ := memChild k u' hu''
      rw [← hzk, own k hk z hz hzk]
    | false =>
      refine .absent ?_ ((hxy i f x y hf hi hy').2 hkeep)
      intro k hk
      cases hck : child v' (.key k) with
      | none => rfl
      | some u =>
        obtain ⟨z, hz, hzk, -⟩ := memChild k u hck
        rw [own k hk z hz hzk] at hz
        rw [(List.mem_filter.1 hz).2] at hkeep
        cases hkeep

/-! ### Examples -/

/-- `#[serde(rename = "port", alias = "Port", default = 80)] port: u16, #[serde(skip)] cache: bool, name: Option<String>`. -/
def exAttrs : List AttrField :=
  [⟨"port", ["Port"], false, deAt (fun _ => []) 1 (.int .u16), .ok (.int .u16 ⟨80, by decide⟩)⟩,
   ⟨"cache", [], true, deAt (fun _ => []) 1 .bool, .ok (.bool false)⟩,
   ⟨"name", [], false, deAt (fun _ => []) 1 (.option .string), missingField "name" (.option .string)⟩]

theorem exAttrs_distinct : AttrsDistinct exAttrs := by unfold AttrsDistinct; decide

/-- The default, and a skipped field that ignores what is there. -/
example : deAttrs false exAttrs (.map [("cache", .boolean true), ("zzz", .none)]) =
    .ok (.struct [("port", .int .u16 ⟨80, by decide⟩), ("cache", .bool false), ("name", .none)]) := rfl
example : deAttrs false exAttrs (.map [("Port", .string "8080")]) =
    .ok (.struct [("port", .int .u16 ⟨8080, by decide⟩), ("cache", .bool false), ("name", .none)]) := rfl
/-- A null is not absent: the default does not apply. -/
example : ∀ d, deAttrs false exAttrs (.map [("port", .none)]) ≠ .ok d := by
  intro d h; cases h
/-- A default layer with `port` and a later layer with `Port`: the struct cannot be read. -/
example (d : Data) : deAttrs false exAttrs (Value.merge (.map [("port", .integer ⟨1, by decide⟩)]) (.map [("Port", .integer ⟨2, by decide⟩)])) ≠ .ok d := by
  intro h; cases h
example : deAttrs true exAttrs (.map [("cache", .boolean true)]) = .err (.deserializationError "unknown field `cache`") := rfl
/-- The hypotheses of `C90_roundtrip`: the port is left out because it is the default. -/
example : ∃ v, serAttrs (fun x => x.1 == "name") [("port", .int .u16 ⟨80, by decide⟩), ("cache", .bool false), ("name", .some (.str "x"))] = .ok v ∧
    deAttrs true exAttrs v = .ok (.struct [("port", .int .u16 ⟨80, by decide⟩), ("cache", .bool false), ("name", .some (.str "x"))]) := ⟨_, rfl, rfl⟩

/-- Two in-memory layers, the second with the alias and with a key that belongs to no field. -/
def exAttrCalls : List RegCall :=
  [.memory "low" (.map [("name", .string "n")]), .memory "high" (.map [("Port", .integer ⟨8080, by decide⟩), ("extra", .boolean true)])]
def exAttrBuilt : Value := .map [("name", .string "n"), ("Port", .integer ⟨8080, by decide⟩), ("extra", .boolean true)]

theorem exAttr_proper : ∀ e ∈ firsts (offers exB1 exFormats exAttrCalls), Proper e.2 := by
  intro e he
  obtain ⟨c, hc, ho⟩ := List.mem_filterMap.1 (mem_firsts he)
  simp only [exAttrCalls, List.mem_cons, List.not_mem_nil, or_false] at hc
  apply C08_builtin_proper exB1 exFormats c e _ _ ho
  · rcases hc with rfl | rfl <;> trivial
  · rcases hc with rfl | rfl <;> intro n v hv <;> cases hv <;> simp [UniqueKeys, UniqueKeysMap, UniqueKeysEntry]

theorem exAttr_unique : UniqueKeys exAttrBuilt := by simp [exAttrBuilt, UniqueKeys, UniqueKeysMap, UniqueKeysEntry]
def exAttrRead : List (String × Data) := [("port", .int .u16 ⟨8080, by decide⟩), ("cache", .bool false), ("name", .some (.str "n"))]

/-- `C90_exact`, read from left to right: every field got its own. -/
example : List.Forall₂ (fun f nd => nd.1 = f.name ∧ FieldGets exAttrBuilt f nd.2) exAttrs exAttrRead := by
  obtain ⟨-, ds, h1, h2⟩ := (C90_exact false exAttrs exAttrs_distinct exAttrBuilt exAttr_unique rfl (.struct exAttrRead)).1 rfl
  cases h1
  exact h2
example : deAttrs false exAttrs (.string "x") = .err (.deserializationError ("Can't deserialize " ++ Value.display (.string "x") ++ " to Map")) :=
  (C90_nonmap_no_panic false exAttrs (.string "x")).1 rfl
/-- Without `extra` and with another `cache` (which is skipped) the same struct is read. -/
example : deAttrs false exAttrs (.map [("cache", .none), ("Port", .integer ⟨8080, by decide⟩), ("name", .string "n")]) = .ok (.struct exAttrRead) := by
  refine (C90_own_keys exAttrs exAttrs_distinct exAttrBuilt _ exAttr_unique (by simp [UniqueKeys, UniqueKeysMap, UniqueKeysEntry]) rfl rfl ?_ _).1 rfl
  intro f hf k hk
  simp only [exAttrs, List.mem_cons, List.not_mem_nil, or_false] at hf
  rcases hf with rfl | rfl | rfl <;> simp [readFrom] at hk
  · rcases hk with rfl | rfl <;> rfl
  · subst hk; rfl
/-- No layer sets `cache`: it is the default. -/
example : (exAttrs[1]?).map (·.missing) = some (.ok (Data.bool false)) ∧
    ∀ deny ds, deAttrs deny exAttrs exAttrBuilt = .ok (.struct ds) → ∀ nd : String × Data, ds[1]? = some nd → nd.2 = .bool false := by
  refine ⟨rfl, fun deny ds h nd hnd => ?_⟩
  have := (C90_defaults exB1 exFormats exAttrCalls exDisk false exAttrBuilt rfl exAttr_proper exAttrs exAttrs_distinct).1 deny ds h 1 _ nd rfl hnd
    (by intro k hk; simp [readFrom] at hk)
  have h0 : (Outcome.ok (Data.bool false) : Outcome ModelError Data) = .ok nd.2 := this
  injection h0 with h0
  exact h0.symm
/-- `port` below, `Port` above: not readable. -/
example (deny : Bool) (v : Value) (h : (register exB1 exFormats (.memory "lowest" (.map [("port", .integer ⟨1, by decide⟩)]) :: exAttrCalls)).buildValue exDisk false = .ok v)
    (d : Data) : deAttrs deny exAttrs v ≠ .ok d := by
  refine C90_split_alias exB1 exFormats _ exDisk false v h ?_ deny exAttrs exAttrs_distinct _ (List.mem_cons_self) "port" "Port" (by decide) (by decide)
    (by decide) ?_ ?_ d
  · intro e he
    obtain ⟨c, hc, ho⟩ := List.mem_filterMap.1 (mem_firsts he)
    simp only [exAttrCalls, List.mem_cons, List.not_mem_nil, or_false] at hc
    apply C08_builtin_proper exB1 exFormats c e _ _ ho
    · rcases hc with rfl | rfl | rfl <;> trivial
    · rcases hc with rfl | rfl | rfl <;> intro n v hv <;> cases hv <;> simp [UniqueKeys, UniqueKeysMap, UniqueKeysEntry]
  · intro h; cases h
  · intro h; cases h
/-- `extra` is set by a layer and is no field: with `deny_unknown_fields` the struct is not read. -/
example (d : Data) : deAttrs true exAttrs exAttrBuilt ≠ .ok d := by
  intro h
  obtain ⟨f, hf, hk⟩ := ((C90_deny exB1 exFormats exAttrCalls exDisk false exAttrBuilt rfl exAttr_proper exAttrs exAttrs_distinct d).1 h).2 "extra"
    (by intro h; cases h)
  revert f
  decide

end Verif.Props
