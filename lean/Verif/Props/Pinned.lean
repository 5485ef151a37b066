import Verif.Spec.Pinned
import Verif.Props.Footprint
import Verif.Props.Reread
/-!
# C120: a layer that has all of the settings pins them
-/
namespace Verif.Props
open Spec

theorem clash_alike {structs : Nat → List (String × Ty)} {t : Ty} {v : Value} (h : KeyClash structs t v) :
    ∀ v', Alike v v' → KeyClash structs t v' := by
  have ch : ∀ {v v' x : Value} {s : Step}, Alike v v' → child v s = some x → ∃ x', child v' s = some x' ∧ Alike x x' := by
    intro v v' x s hs hx
    have h0 := alike_none hs [s]
    have h1 := alike_child hs s
    cases hx' : child v' s with
    | none => simp [view, hx, hx'] at h0
    | some x' => rw [hx, hx'] at h1; exact ⟨x', rfl, h1⟩
  induction h with
  | here h1 h2 h3 h4 =>
    intro v' hs
    obtain ⟨x, hx⟩ := Option.ne_none_iff_exists'.1 h3
    obtain ⟨y, hy⟩ := Option.ne_none_iff_exists'.1 h4
    obtain ⟨x', hx', _⟩ := ch hs hx
    obtain ⟨y', hy', _⟩ := ch hs hy
    exact .here h1 h2 (by rw [hx']; simp) (by rw [hy']; simp)
  | entry h1 _ ih => intro v' hs; obtain ⟨x', hx', h⟩ := ch hs h1; exact .entry hx' (ih x' h)
  | option _ ih => intro v' hs; exact .option (ih v' hs)
  | newtype _ ih => intro v' hs; exact .newtype (ih v' hs)
  | seq h1 _ ih => intro v' hs; obtain ⟨x', hx', h⟩ := ch hs h1; exact .seq hx' (ih x' h)
  | tuple h0 h1 _ ih => intro v' hs; obtain ⟨x', hx', h⟩ := ch hs h1; exact .tuple h0 hx' (ih x' h)
  | tupleStruct h0 h1 _ ih => intro v' hs; obtain ⟨x', hx', h⟩ := ch hs h1; exact .tupleStruct h0 hx' (ih x' h)
  | struct h0 h1 _ ih => intro v' hs; obtain ⟨x', hx', h⟩ := ch hs h1; exact .struct h0 hx' (ih x' h)
  | ref _ ih => intro v' hs; exact .ref (ih v' hs)

/-- **C120.** A layer settles everything the settings look at, and the layers after it say nothing there. Then the settings read from the configuration are
those read from this layer alone, whatever the layers before it are and whatever they say. -/
theorem C120_settled (b : Build) (fm : Formats) (calls : List RegCall) (w : World) (skip : Bool) (v : Value)
    (h : (register b fm calls).buildValue w skip = .ok v) (hp : ∀ a ∈ firsts (offers b fm calls), Proper a.2)
    (before after : List (String × Layer)) (e : String × Layer) (hls : firsts (offers b fm calls) = before ++ e :: after)
    (structs : Nat → List (String × Ty)) (hs : ∀ n, WellFormed (.struct (structs n))) (T : Ty) (hT : WellFormed T)
    (x : Value) (hx : e.2.readValue w = .ok x) (hm : x.isMap = true) (hset : Settles structs T x)
    (hafter : ∀ a ∈ after, ∀ p, Looks structs T p → p ≠ [] → ¬ Speaks w a.2 p) (hc : ¬ KeyClash structs T x) (k : Nat) :
    ((∃ d, deAt structs k T v = .ok d) ↔ ∃ d, deAt structs k T x = .ok d) ∧
    ∀ d d', deAt structs k T v = .ok d → deAt structs k T x = .ok d' → DSame d d' := by
  have hux : UniqueKeys x := hp e (by rw [hls]; simp) w x hx
  obtain ⟨hvm, hvu⟩ := C08_map b fm calls w skip v h
  have key : ∀ p, Looks structs T p → view x p = view v p := by
    intro p hl
    by_cases hp0 : p = []
    · subst hp0
      simp only [view]
      cases x <;> cases v <;> simp_all [head, Value.isMap]
    · exact (C07_last_speaker b fm calls w skip v h hp p before e after x hls hx hm (hset p hl) fun a ha => hafter a ha p hl hp0).symm
  obtain ⟨h1, h2⟩ := C119_footprint structs hs T hT k x v hux (hvu hp) key hc
  exact ⟨h1.symm, fun d d' hd hd' p => (h2 d' d hd' hd p).symm⟩

/-! ## Serialized settings settle their type -/

theorem unset_key_map {m : Entries} {k : String} {p : Path} (h : Unset (.map m) (.key k :: p)) :
    hmGet m k = none ∨ hmGet m k = some .none ∨ ∃ x, hmGet m k = some x ∧ Unset x p := by
  obtain ⟨q, k', r, e, h1, h2⟩ := h
  cases q with
  | nil =>
    simp only [List.nil_append, List.cons.injEq, Step.key.injEq] at e h2
    obtain ⟨rfl, rfl⟩ := e
    simp only [view, child_key_map] at h2
    cases hg : hmGet m k with
    | none => exact Or.inl rfl
    | some x =>
      rw [hg] at h2
      simp only [Option.bind_some, Option.some.injEq, reduceCtorEq, false_or] at h2
      cases x <;> simp_all [head]
  | cons s q =>
    simp only [List.cons_append, List.cons.injEq] at e
    obtain ⟨rfl, rfl⟩ := e
    cases hg : hmGet m k with
    | none => exact Or.inl rfl
    | some x =>
      refine Or.inr (Or.inr ⟨x, rfl, q, k', r, rfl, fun q' hq' => ?_, ?_⟩)
      · have := h1 (.key k :: q') (List.cons_prefix_cons.2 ⟨rfl, hq'⟩)
        simpa only [view, child_key_map, hg, Option.bind_some] using this
      · simpa only [List.cons_append, view, child_key_map, hg, Option.bind_some] using h2

theorem unset_nonmap {v : Value} (hm : v.isMap = false) (p : Path) : ¬ Unset v p := by
  rintro ⟨q, k, r, -, h2, -⟩
  have := h2 [] List.nil_prefix
  cases v <;> simp_all [view, head, Value.isMap]

theorem unset_nil (v : Value) : ¬ Unset v [] := by
  rintro ⟨q, k, r, h, -⟩; simp at h

theorem given_ser {structs : Nat → List (String × Ty)} (hs : ∀ n, Survives (.struct (structs n))) (hso : ∀ n, OmitsNone (.struct (structs n)))
    (hsn : ∀ n, NoTables (.struct (structs n))) {T : Ty} {d : Data} (ht : HasType structs T d) :
    Survives T → OmitsNone T → NoTables T → ¬ Lacks d → ∀ v, ser d = .ok v → ∀ p, Looks structs T p → ¬ Unset v p := by
  induction ht with
  | none t => intro _ _ _ h; exact absurd .none h
  | some _ ih =>
    intro hT hO hN hL v hv p hp
    rw [ser] at hv
    cases hT with | option hT _ => cases hO with
      | leaf h => simp at h
      | option hO => cases hN with
        | leaf h => simp at h
        | option hN => cases hp with
          | here => exact unset_nil v
          | option hp => exact ih hT hO hN (fun h => hL (.some h)) v hv p hp
  | newtype _ ih =>
    intro hT hO hN hL v hv p hp
    rw [ser] at hv
    cases hT with | newtype hT => cases hO with
      | leaf h => simp at h
      | newtype hO => cases hN with
        | leaf h => simp at h
        | newtype hN => cases hp with
          | here => exact unset_nil v
          | newtype hp => exact ih hT hO hN (fun h => hL (.newtype h)) v hv p hp
  | seq _ _ =>
    intro _ _ _ _ v hv p _
    obtain ⟨vs, -, rfl⟩ := ser_seq.1 hv
    exact unset_nonmap rfl p
  | tuple _ _ _ =>
    intro _ _ _ _ v hv p _
    obtain ⟨vs, -, rfl⟩ := ser_tuple.1 hv
    exact unset_nonmap rfl p
  | tupleStruct _ _ _ =>
    intro _ _ _ _ v hv p _
    obtain ⟨vs, -, rfl⟩ := ser_tupleStruct.1 hv
    exact unset_nonmap rfl p
  | map _ _ _ _ =>
    intro _ _ hN
    cases hN with | leaf h => simp at h
  | value v _ =>
    intro _ _ hN
    cases hN with | leaf h => simp at h
  | @struct fs ds hl hty ih =>
    intro hT hO hN hL v hv p hp
    cases hT with
    | struct hn hT => cases hO with
    | leaf h => simp at h
    | struct hO1 hO => cases hN with
    | leaf h => simp at h
    | struct hN =>
      obtain ⟨kvs, h1, rfl⟩ := ser_struct.1 hv
      have hnd : (ds.map Prod.fst).Nodup := by rw [hl]; exact hn
      obtain ⟨-, -, c3, -⟩ := serializedFields_of hnd h1
      cases hp with
      | here => exact unset_nil _
      | @struct _ name t p hmem hp =>
        intro hu
        obtain ⟨i, hi⟩ := List.mem_iff_getElem?.1 hmem
        have l0 : ds.length = fs.length := by simpa using congrArg List.length hl
        obtain ⟨nd, hd⟩ := get_of_lt (show i < ds.length by rw [l0]; exact lt_of_get hi)
        have hname : nd.1 = name := by
          have := congrArg (fun l : List String => l[i]?) hl
          simpa [hi, hd] using this
        have hLx : ¬ Lacks nd.2 := fun h => hL (.field (n := nd.1) (List.mem_of_getElem? hd) h)
        have hx := hty i (name, t) nd hi hd
        obtain ⟨x, h2, h3⟩ := c3 nd (List.mem_of_getElem? hd)
        rw [hname, child_key_map] at h3
        rcases unset_key_map hu with h4 | h4 | ⟨y, h4, h5⟩
        · rw [h3] at h4; cases h4
        · rw [h3] at h4; cases h4
          rcases hO1 (name, t) hmem with hnn | ⟨t', e⟩
          · exact ser_not_none hx hnn .none h2 rfl
          · simp only at e
            subst e
            cases hT _ hmem with
            | option _ hnn =>
              obtain ⟨n0, D⟩ := nd
              cases hx with
              | none => exact hLx .none
              | some hx =>
                rw [ser] at h2
                exact ser_not_none hx hnn .none h2 rfl
        · rw [h3] at h4; cases h4
          exact ih i (name, t) nd hi hd (hT _ hmem) (hO _ hmem) (hN _ hmem) hLx x h2 p hp h5
  | ref _ ih =>
    intro _ _ _ hL v hv p hp
    cases hp with
    | here => exact unset_nil v
    | ref hp => exact ih (hs _) (hso _) (hsn _) hL v hv p hp
  | int t n => intro _ _ _ _ v hv p _; refine unset_nonmap ?_ p; cases t <;> simp [ser, Value.ofInt] at hv <;> subst hv <;> rfl
  | bytes bs => intro _ hO; cases hO with | leaf h => simp at h
  | _ => intro _ _ _ _ v hv p _; rw [ser] at hv; cases hv; exact unset_nonmap rfl p

/-! ## Saving all of the settings -/

/-- **C120.** Settings that lack nothing, of a type without maps, are serialized and written through a TOML file layer. From then on, as long as that file
reads the same, every configuration that has the file as a layer — in the same process or another, with whatever layers before it, and with layers after it
that say nothing about the settings — gives these settings. -/
theorem C120_saved {limit : Nat} {cd : Codec} (htl : TomlLike limit cd) (structs : Nat → List (String × Ty))
    (hs : ∀ n, Survives (.struct (structs n))) (hsc : ∀ n, Concrete (.struct (structs n))) (hso : ∀ n, OmitsNone (.struct (structs n)))
    (hsn : ∀ n, NoTables (.struct (structs n)))
    (T : Ty) (hT : Survives T) (hTc : Concrete T) (hTo : OmitsNone T) (hTn : NoTables T) (d : Data) (hd : HasType structs T d) (hL : ¬ Lacks d)
    (x : Value) (hx : ser d = .ok x) (hdepth : DepthBelow x limit) (w w' : World) (path : OsStr)
    (hok : (Layer.newFile (textHandler cd) path).writeValue w x = (.ok (), w'))
    (hread : ∀ bs code wr, w.disk (w.locate path) ≠ .file bs (some code) wr) :
    ∃ k0, ∀ k, k0 ≤ k → ∀ (b : Build) (fm : Formats) (calls : List RegCall) (lower upper : List (String × Layer)) (name : String)
      (w2 : World) (skip : Bool) (v : Value),
      firsts (offers b fm calls) = lower ++ (name, .newFile (textHandler cd) path) :: upper →
      (∀ a ∈ firsts (offers b fm calls), Proper a.2) →
      (Layer.newFile (textHandler cd) path).readValue w2 = (Layer.newFile (textHandler cd) path).readValue w' →
      (∀ a ∈ upper, ∀ p, Looks structs T p → p ≠ [] → ¬ Speaks w2 a.2 p) →
      (register b fm calls).buildValue w2 skip = .ok v →
      ∃ d', deAt structs k T v = .ok d' ∧ DSame d d' := by
  obtain ⟨r, hr, k0, hk⟩ := C84_typed htl structs hs hsc hso T hT hTc hTo d hd x hx hdepth w w' path hok hread
  have hxu := uniqueKeys_ser d x hx
  obtain ⟨hxm, s, r', hr', hom, -, hal, hur⟩ := toml_stored htl hxu hdepth hok hread
  rw [hr] at hr'; cases hr'
  have hset : Settles structs T r := by
    intro p hp hsil
    exact given_ser hs hso hsn hd hT hTo hTn hL x hx p hp ((unset_iff hom p).2 (silent_alike (Alike.symm hal) hsil))
  have hsame := same_of_omitting (omitting_prune' hxu) hom
  have hpa : Alike (prune x) r := by intro p; rw [hsame p]; exact hal p
  have hnc : ¬ KeyClash structs T r := fun hh =>
    noClash_ser hs hd hT x hx (clash_prune (clash_alike hh _ (Alike.symm hpa)) _ x hxu rfl)
  have hrm : r.isMap = true := by
    rw [← alike_isMap hpa]
    cases x <;> simp_all [Value.isMap, prune, pruneBy]
  refine ⟨k0, fun k hk' b fm calls lower upper name w2 skip v hls hp hr2 hup hv => ?_⟩
  obtain ⟨d1, e1, e2⟩ := hk k hk'
  obtain ⟨h1, h2⟩ := C120_settled b fm calls w2 skip v hv hp lower upper _ hls structs (fun n => wellFormed_of_survives (hs n)) T
    (wellFormed_of_survives hT) r (by rw [hr2]; exact hr) hrm hset hup hnc k
  obtain ⟨d', h3⟩ := h1.2 ⟨d1, e1⟩
  exact ⟨d', h3, fun p => (e2 p).trans (h2 d' d1 h3 e1 p).symm⟩

/-- **C120.** A program that reads its settings from a configuration, finds nothing lacking and saves them through one of the file layers has pinned them:
as long as the file reads the same and no later layer says anything about them, changes of the layers before it — new defaults, another system-wide
file, other environment variables — do not reach the settings any more. -/
theorem C120_frozen {limit : Nat} {cd : Codec} (htl : TomlLike limit cd) (structs : Nat → List (String × Ty))
    (hs : ∀ n, Survives (.struct (structs n))) (hsc : ∀ n, Concrete (.struct (structs n))) (hso : ∀ n, OmitsNone (.struct (structs n)))
    (hsn : ∀ n, NoTables (.struct (structs n)))
    (T : Ty) (hT : Survives T) (hTc : Concrete T) (hTo : OmitsNone T) (hTn : NoTables T)
    (b : Build) (fm : Formats) (calls : List RegCall) (w : World) (skip : Bool) (v : Value) (hv : (register b fm calls).buildValue w skip = .ok v)
    (hp : ∀ a ∈ firsts (offers b fm calls), Proper a.2) (j : Nat) (d : Data) (hd : deAt structs j T v = .ok d) (hL : ¬ Lacks d) (path : OsStr) :
    ∃ x, ser d = .ok x ∧ (DepthBelow x limit → (∀ bs code wr, w.disk (w.locate path) ≠ .file bs (some code) wr) →
      ∀ w', (Layer.newFile (textHandler cd) path).writeValue w x = (.ok (), w') →
      ∃ k0, ∀ k, k0 ≤ k → ∀ (b' : Build) (fm' : Formats) (calls' : List RegCall) (lower upper : List (String × Layer)) (name : String)
        (w2 : World) (skip' : Bool) (v' : Value),
        firsts (offers b' fm' calls') = lower ++ (name, .newFile (textHandler cd) path) :: upper →
        (∀ a ∈ firsts (offers b' fm' calls'), Proper a.2) →
        (Layer.newFile (textHandler cd) path).readValue w2 = (Layer.newFile (textHandler cd) path).readValue w' →
        (∀ a ∈ upper, ∀ p, Looks structs T p → p ≠ [] → ¬ Speaks w2 a.2 p) →
        (register b' fm' calls').buildValue w2 skip' = .ok v' →
        ∃ d', deAt structs k T v' = .ok d' ∧ DSame d d') := by
  have hvu := (C08_map b fm calls w skip v hv).2 hp
  have ht := C118_typed structs (fun n => wellFormed_of_survives (hs n)) T (wellFormed_of_survives hT) j v hvu d hd
  obtain ⟨x, hx⟩ := (ser_ok_iff d).2 (serializable_concrete hs hsc ht hT hTc)
  exact ⟨x, hx, fun hdepth hread w' hok =>
    C120_saved htl structs hs hsc hso hsn T hT hTc hTo hTn d ht hL x hx hdepth w w' path hok hread⟩

/-- **C120.** Tables are not pinned: an entry of a map field that some layer has and no later layer says anything about — so the saved file lacks it, say because
the program removed it before saving — is in the settings that are read. -/
theorem C120_table (b : Build) (fm : Formats) (calls : List RegCall) (w : World) (skip : Bool) (v : Value)
    (h : (register b fm calls).buildValue w skip = .ok v) (hp : ∀ a ∈ firsts (offers b fm calls), Proper a.2)
    (before after : List (String × Layer)) (e : String × Layer) (hls : firsts (offers b fm calls) = before ++ e :: after)
    (y : Value) (hy : e.2.readValue w = .ok y) (hm : y.isMap = true) (name text : String) (hent : view y [.key name, .key text] ≠ none)
    (hafter : ∀ a ∈ after, ¬ Speaks w a.2 [.key name, .key text])
    (structs : Nat → List (String × Ty)) (fs : List (String × Ty)) (hn : (fs.map Prod.fst).Nodup) (kt : KeyTy) (t : Ty) (hmem : (name, .map kt t) ∈ fs)
    (k : Nat) (d : Data) (hd : deAt structs k (.struct fs) v = .ok d) (key : Key) (hkey : Denotes kt text key) :
    ∃ ds table x, d = .struct ds ∧ (name, table) ∈ ds ∧ dchild table (.key key) = some x := by
  have hns : ¬ Silent y [.key name, .key text] := by
    rintro ⟨q, k', r, e1, -, h2⟩
    match q, e1 with
    | [], e1 =>
      simp only [List.nil_append, List.cons.injEq, Step.key.injEq] at e1
      obtain ⟨rfl, rfl⟩ := e1
      exact hent (view_none_append y _ [.key text] h2)
    | [s], e1 =>
      simp only [List.cons_append, List.nil_append, List.cons.injEq, Step.key.injEq] at e1
      obtain ⟨rfl, rfl, rfl⟩ := e1
      exact hent h2
    | s :: s' :: q, e1 => simp at e1
  have hv := C07_last_speaker b fm calls w skip v h hp _ before e after y hls hy hm hns hafter
  have hu := (C08_map b fm calls w skip v h).2 hp
  obtain ⟨m, rfl⟩ := struct_map hd
  obtain ⟨ds, rfl, h1⟩ := (de_struct_ok _ _ hn _ (uniqueKeys_map.1 hu).1 _).1 hd
  obtain ⟨e1, h2⟩ := fields_of h1
  obtain ⟨nd, hnd, e2⟩ := List.mem_map.1 (show name ∈ ds.map Prod.fst by rw [e1]; exact List.mem_map_of_mem (f := Prod.fst) hmem)
  obtain ⟨n', table⟩ := nd
  simp only at e2
  subst e2
  obtain ⟨t', ht', h3⟩ := h2 n' table hnd
  have : t' = .map kt t := mem_unique hn ht' hmem
  subst this
  cases hg : hmGet m n' with
  | none =>
    rw [show [Step.key n', .key text] = .key n' :: [.key text] from rfl, view_cons, child_key_map, hg] at hv
    exact absurd hv.symm hent
  | some x =>
    rw [hg] at h3
    have h4 : deAt structs k (.map kt t) x = .ok table := h3
    obtain ⟨m', rfl⟩ : ∃ m', x = .map m' := by obtain ⟨m', es, e, -⟩ := de_map_ok.1 h4; exact ⟨m', e⟩
    have hx : ∃ z, hmGet m' text = some z := by
      cases hz : hmGet m' text with
      | some z => exact ⟨z, rfl⟩
      | none =>
        rw [view_cons, child_key_map, hg, Option.bind_some, view_cons, child_key_map, hz] at hv
        exact absurd hv.symm hent
    obtain ⟨z, hz⟩ := hx
    obtain ⟨-, h5⟩ := (C116_content structs k kt t m' table h4)
    have h6 := (C116_reads structs k kt t (.map m')).1 ⟨table, h4⟩
    obtain ⟨_, e, h6⟩ := h6
    cases e
    -- the last entry whose text denotes the key
    have last : ∀ l : Entries, (∃ e ∈ l, Denotes kt e.1 key) → ∃ before e after, l = before ++ e :: after ∧ Denotes kt e.1 key ∧ ∀ a ∈ after, ¬ Denotes kt a.1 key := by
      intro l
      induction l with
      | nil => rintro ⟨e, he, -⟩; cases he
      | cons a l ih =>
        rintro ⟨e, he, hde⟩
        by_cases hl : ∃ e ∈ l, Denotes kt e.1 key
        · obtain ⟨b1, e1, a1, rfl, h7⟩ := ih hl
          exact ⟨a :: b1, e1, a1, rfl, h7⟩
        · rcases List.mem_cons.1 he with rfl | he
          · exact ⟨[], e, l, rfl, hde, fun a ha hh => hl ⟨a, ha, hh⟩⟩
          · exact absurd ⟨e, he, hde⟩ hl
    obtain ⟨b1, e1, a1, e3, h7, h8⟩ := last m' ⟨_, hmGet_mem hz, hkey⟩
    obtain ⟨-, x', h9⟩ := h6 e1 (by rw [e3]; simp)
    exact ⟨ds, table, x', rfl, hnd, (h5 key x').2 ⟨b1, e1.1, e1.2, a1, e3, h7, h9, h8⟩⟩

/-! ## Concrete cases -/

def exPinned : Data := .struct [("proxy", .some (.str "q")), ("a", .str "2")]

/-- A program that found all its settings saves them. Whatever defaults a later version puts below the file, it reads what was saved. -/
example : ∃ (w w' : World) (x : Value), ser exPinned = .ok x ∧ exTSFile.writeValue w x = (.ok (), w') ∧
    ∀ (dflt : Entries), UniqueKeys (.map dflt) → ∃ v d',
      (register exB1 ⟨exToml, exToml⟩ [.memory "default" (.map dflt), .file "file" (os "/c.toml")]).buildValue w' false = .ok v ∧
      ∃ k, deAt (fun _ => []) k (.struct exWhole) v = .ok d' ∧ DSame exPinned d' := by
  obtain ⟨w1, hr1, hw1, -⟩ := exEd_start
  obtain ⟨hh, hd⟩ := exEd_flat [("proxy", .string "q"), ("a", .string "2")] (by simp)
  obtain ⟨w2, hok, hr2, -⟩ := exTS_step hw1 (v := .map [("proxy", .string "q"), ("a", .string "2")]) (r := .map [("proxy", .string "q"), ("a", .string "2")]) rfl hh (by
    rw [show prune (.map [("proxy", .string "q"), ("a", .string "2")]) = .map [("proxy", .string "q"), ("a", .string "2")] from rfl]
    simp only [docOf, List.attach, List.attachWith, List.pmap, List.map]; rfl)
  have hread : ∀ bs code wr, w1.disk (w1.locate (os "/c.toml")) ≠ .file bs (some code) wr := by
    intro bs code wr h
    obtain ⟨-, h2, bs', h3⟩ := hw1
    rw [show w1.locate (os "/c.toml") = 3 by rw [h2]; rfl] at h
    rcases h3 with h3 | h3 <;> rw [h3] at h <;> cases h
  have hempty : Survives (.struct []) ∧ Concrete (.struct []) ∧ OmitsNone (.struct []) ∧ NoTables (.struct []) :=
    ⟨.struct (by simp) (by simp), .struct (by simp), .struct (by simp) (by simp), .struct (by simp)⟩
  have hall : ∀ f ∈ exWhole, f.2 = .option .string ∨ f.2 = .string := by simp [exWhole]
  have hS : Survives (.struct exWhole) := .struct (by decide) fun f hf => by
    rcases hall f hf with h | h <;> rw [h]
    · exact .option .string rfl
    · exact .string
  have hC : Concrete (.struct exWhole) := .struct fun f hf => by
    rcases hall f hf with h | h <;> rw [h]
    · exact .option (.leaf (by simp))
    · exact .leaf (by simp)
  have hO : OmitsNone (.struct exWhole) := .struct (fun f hf => by
    rcases hall f hf with h | h <;> rw [h]
    · exact Or.inr ⟨_, rfl⟩
    · exact Or.inl rfl) fun f hf => by
    rcases hall f hf with h | h <;> rw [h]
    · exact .option (.leaf (by simp))
    · exact .leaf (by simp)
  have hN : NoTables (.struct exWhole) := .struct fun f hf => by
    rcases hall f hf with h | h <;> rw [h]
    · exact .option (.leaf (by simp))
    · exact .leaf (by simp)
  have hL : ¬ Lacks exPinned := by
    intro h
    cases h with
    | field hm hl =>
      simp only [List.mem_cons, Prod.mk.injEq, List.not_mem_nil, or_false] at hm
      rcases hm with ⟨-, rfl⟩ | ⟨-, rfl⟩
      · cases hl with | some hl => cases hl
      · cases hl
  have ht := C118_typed (fun _ => []) (fun _ => wellFormed_of_survives hempty.1) (.struct exWhole) (wellFormed_of_survives hS) 0
    (.map [("proxy", .string "q"), ("a", .string "2")]) (by simp [UniqueKeys, UniqueKeysMap, UniqueKeysEntry]) exPinned (by rfl)
  obtain ⟨k0, hk⟩ := C120_saved (exToml_like 80) (fun _ => []) (fun _ => hempty.1) (fun _ => hempty.2.1) (fun _ => hempty.2.2.1) (fun _ => hempty.2.2.2)
    (.struct exWhole) hS hC hO hN exPinned ht hL (.map [("proxy", .string "q"), ("a", .string "2")]) (by rfl) hd w1 w2 (os "/c.toml") hok hread
  refine ⟨w1, w2, _, by rfl, hok, fun dflt hu => ?_⟩
  have hb : (register exB1 ⟨exToml, exToml⟩ [.memory "default" (.map dflt), .file "file" (os "/c.toml")]).buildValue w2 false =
      .ok ((Value.newMap.merge (.map dflt)).merge (.map [("proxy", .string "q"), ("a", .string "2")])) := by
    rw [buildValue_is (is_register _ _ _)]
    show buildList w2 false Value.newMap [("default", .memory (.map dflt)), ("file", exTSFile)] = _
    simp only [buildList, hr2]
    rfl
  obtain ⟨d', h1, h2⟩ := hk k0 (Nat.le_refl _) exB1 ⟨exToml, exToml⟩ [.memory "default" (.map dflt), .file "file" (os "/c.toml")]
    [("default", .memory (.map dflt))] [] "file" w2 false _ rfl (fun a ha => by
      obtain ⟨c, hc, ho⟩ := List.mem_filterMap.1 (mem_firsts ha)
      refine C08_builtin_proper exB1 ⟨exToml, exToml⟩ c a ?_ ?_ ho
      · simp only [List.mem_cons, List.not_mem_nil, or_false] at hc
        rcases hc with rfl | rfl <;> trivial
      · intro n x e
        simp only [List.mem_cons, List.not_mem_nil, or_false] at hc
        rcases hc with rfl | rfl <;> cases e
        exact hu) rfl (by simp) hb
  exact ⟨_, d', hb, k0, h1, h2⟩

def exAliasCalls : List RegCall := [.memory "default" (.map [("alias", .map [("x", .string "1"), ("y", .string "2")])]),
  .memory "saved" (.map [("alias", .map [("x", .string "1")])])]
def exAliases : Value := .map [("alias", .map [("x", .string "1"), ("y", .string "2")])]

/-- The program removed the alias `y` and saved the rest; the defaults bring it back. -/
example : ∃ v d, (register exB1 exFormats exAliasCalls).buildValue exDisk false = .ok v ∧
    deAt (fun _ => []) 0 (.struct [("alias", .map .string .string)]) v = .ok d ∧
    ∃ ds table x, d = .struct ds ∧ ("alias", table) ∈ ds ∧ dchild table (.key (.str "y")) = some x := by
  refine ⟨exAliases, .struct [("alias", .map [(.str "x", .str "1"), (.str "y", .str "2")])],
    by rfl, by rfl, ?_⟩
  refine C120_table exB1 exFormats exAliasCalls exDisk false exAliases (by rfl) ?_ [] [("saved", .memory (.map [("alias", .map [("x", .string "1")])]))]
    ("default", .memory (.map [("alias", .map [("x", .string "1"), ("y", .string "2")])])) (by rfl) _ rfl rfl "alias" "y" (by decide) ?_
    (fun _ => []) [("alias", .map .string .string)] (by decide) .string .string (by simp) 0 _ (by rfl) (.str "y") rfl
  · intro a ha
    obtain ⟨c, hc, ho⟩ := List.mem_filterMap.1 (mem_firsts ha)
    simp only [exAliasCalls, List.mem_cons, List.not_mem_nil, or_false] at hc
    refine C08_builtin_proper exB1 exFormats c a ?_ ?_ ho
    · rcases hc with rfl | rfl <;> trivial
    · intro n x e
      rcases hc with rfl | rfl <;> cases e <;> simp [UniqueKeys, UniqueKeysMap, UniqueKeysEntry]
  · simp only [List.mem_singleton, forall_eq]
    rintro ⟨x, hx, -, hs⟩
    cases hx
    exact hs ⟨[.key "alias"], "y", [], rfl, fun q' hq' => by
      rcases List.prefix_cons_iff.1 hq' with rfl | ⟨r, rfl, hr⟩
      · rfl
      · rw [List.prefix_nil] at hr; subst hr; decide, by decide⟩

end Verif.Props
