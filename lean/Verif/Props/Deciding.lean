import Verif.Spec.Deciding
import Verif.Props.Contained
/-!
# Which files decide (C134)
-/
namespace Verif.Props
open Spec FileFinder

/-! ## The searches -/

theorem result_ext {r r' : FindResult} (h1 : r.path = r'.path) (h2 : r.exists' = r'.exists') (h3 : r.index = r'.index)
    (h4 : r.extension = r'.extension) : r = r' := by
  cases r; cases r'; simp_all

theorem reports_eq {b : Build} {w u : World} {c : OsStr × String} {i : Nat} {r r' : FindResult} (h : Reports b w c i r)
    (h' : Reports b u c i r') (he : w.pathExists c.1 = u.pathExists c.1) : r = r' :=
  result_ext (h.1.trans h'.1.symm) (by rw [h.2.1, h'.2.1, he]) (h.2.2.1.trans h'.2.2.1.symm) (h.2.2.2.trans h'.2.2.2.symm)

theorem nodup_fst {cs : List (OsStr × String)} (h : (cs.map Prod.fst).Nodup) {i j : Nat} {c d : OsStr × String} (hi : cs[i]? = some c)
    (hj : cs[j]? = some d) (e : c.1 = d.1) : i = j := by
  obtain ⟨li, rfl⟩ := List.getElem?_eq_some_iff.1 hi
  obtain ⟨lj, rfl⟩ := List.getElem?_eq_some_iff.1 hj
  exact (List.Nodup.getElem_inj_iff h (hi := by simpa using li) (hj := by simpa using lj)).1 (by simpa using e)

theorem first_or_none (w : World) (cs : List (OsStr × String)) :
    (∃ i, FirstThere w cs i) ∨ ∀ c ∈ cs, w.pathExists c.1 = false := by
  cases h : cs.find? (fun c => w.pathExists c.1) with
  | some c =>
    obtain ⟨i, h1, h2, h3⟩ := find_first_index _ _ h
    exact Or.inl ⟨i, ⟨c, h1, h2⟩, h3⟩
  | none => exact Or.inr fun c hc => by simpa using List.find?_eq_none.1 h c hc

theorem last_or_none (w : World) (cs : List (OsStr × String)) :
    (∃ i, LastThere w cs i) ∨ ∀ c ∈ cs, w.pathExists c.1 = false := by
  by_cases h : ∃ c ∈ cs, w.pathExists c.1 = true
  · obtain ⟨i, c, h1, h2, h3⟩ := exists_last (fun c => w.pathExists c.1) cs h
    exact Or.inl ⟨i, ⟨c, h1, h2⟩, h3⟩
  · exact Or.inr fun c hc => Bool.eq_false_iff.2 fun e => h ⟨c, hc, e⟩

theorem no_first {w : World} {cs : List (OsStr × String)} (h : ∀ c ∈ cs, w.pathExists c.1 = false) (i : Nat) : ¬ FirstThere w cs i :=
  fun ⟨⟨c, hc, he⟩, _⟩ => by rw [h c (List.mem_of_getElem? hc)] at he; cases he

theorem no_last {w : World} {cs : List (OsStr × String)} (h : ∀ c ∈ cs, w.pathExists c.1 = false) (i : Nat) : ¬ LastThere w cs i :=
  fun ⟨⟨c, hc, he⟩, _⟩ => by rw [h c (List.mem_of_getElem? hc)] at he; cases he

theorem first_unique {w : World} {cs : List (OsStr × String)} {i j : Nat} (h : FirstThere w cs i) (h' : FirstThere w cs j) : i = j := by
  obtain ⟨⟨c, hc, he⟩, hn⟩ := h
  obtain ⟨⟨d, hd, hde⟩, hn'⟩ := h'
  rcases Nat.lt_trichotomy i j with l | l | l
  · rw [hn' i c l hc] at he; cases he
  · exact l
  · rw [hn j d l hd] at hde; cases hde

theorem last_unique {w : World} {cs : List (OsStr × String)} {i j : Nat} (h : LastThere w cs i) (h' : LastThere w cs j) : i = j := by
  obtain ⟨⟨c, hc, he⟩, hn⟩ := h
  obtain ⟨⟨d, hd, hde⟩, hn'⟩ := h'
  rcases Nat.lt_trichotomy i j with l | l | l
  · rw [hn j d l hd] at hde; cases hde
  · exact l
  · rw [hn' i c l hc] at he; cases he

/-- **C134.** What the answer of `find_first` hangs on: it is the same in two worlds exactly if the same candidate is the first that exists
(or none exists in either). So what comes after that candidate may come and go, and any earlier candidate that comes into being takes over. -/
theorem C134_first (b : Build) (w u : World) (f : FileFinder) (am : Bool) (hf : Ready f) (hd : ((candidates f).map Prod.fst).Nodup) :
    findFirst b w f am = findFirst b u f am ↔ ∀ i, FirstThere w (candidates f) i ↔ FirstThere u (candidates f) i := by
  have key : ∀ (w u : World) i, FirstThere w (candidates f) i → (∀ c ∈ candidates f, u.pathExists c.1 = false) →
      findFirst b w f am ≠ findFirst b u f am := by
    rintro w u i ⟨⟨c, hc, he⟩, hn⟩ hno h
    obtain ⟨r, e1, e2⟩ := (C45_find_first b w f am hf).1 i c hc he hn
    rw [e1] at h
    cases am with
    | false => rw [((C45_find_first b u f false hf).2 hno).2 rfl] at h; cases h
    | true =>
      obtain ⟨d, r', h1, h2, h3⟩ := ((C45_find_first b u f true hf).2 hno).1 rfl
      rw [h2] at h; cases h
      have := e2.2.1.trans he
      rw [h3.2.1, hno d (List.mem_of_getElem? h1)] at this; cases this
  rcases first_or_none w (candidates f) with ⟨i, hi⟩ | hw <;> rcases first_or_none u (candidates f) with ⟨j, hj⟩ | hu
  · obtain ⟨⟨c, hc, he⟩, hn⟩ := hi
    obtain ⟨⟨d, hdj, hde⟩, hn'⟩ := hj
    obtain ⟨r, e1, e2⟩ := (C45_find_first b w f am hf).1 i c hc he hn
    obtain ⟨r', e1', e2'⟩ := (C45_find_first b u f am hf).1 j d hdj hde hn'
    constructor
    · intro h
      rw [e1, e1'] at h; cases h
      have := nodup_fst hd hc hdj (e2.1.symm.trans e2'.1)
      subst this
      intro k
      exact ⟨fun h => by rw [first_unique h ⟨⟨c, hc, he⟩, hn⟩]; exact ⟨⟨d, hdj, hde⟩, hn'⟩,
        fun h => by rw [first_unique h ⟨⟨d, hdj, hde⟩, hn'⟩]; exact ⟨⟨c, hc, he⟩, hn⟩⟩
    · intro h
      have := first_unique ((h i).1 ⟨⟨c, hc, he⟩, hn⟩) ⟨⟨d, hdj, hde⟩, hn'⟩
      subst this
      rw [hc] at hdj; cases hdj
      rw [e1, e1', reports_eq e2 e2' (he.trans hde.symm)]
  · exact ⟨fun h => absurd h (key w u i hi hu), fun h => absurd ((h i).1 hi) (no_first hu i)⟩
  · exact ⟨fun h => absurd h.symm (key u w j hj hw), fun h => absurd ((h j).2 hj) (no_first hw j)⟩
  · refine ⟨fun _ i => ⟨fun h => absurd h (no_first hw i), fun h => absurd h (no_first hu i)⟩, fun _ => ?_⟩
    cases am with
    | false => rw [((C45_find_first b w f false hf).2 hw).2 rfl, ((C45_find_first b u f false hf).2 hu).2 rfl]
    | true =>
      obtain ⟨c, r, h1, h2, h3⟩ := ((C45_find_first b w f true hf).2 hw).1 rfl
      obtain ⟨d, r', h1', h2', h3'⟩ := ((C45_find_first b u f true hf).2 hu).1 rfl
      rw [h1] at h1'; cases h1'
      rw [h2, h2', reports_eq h3 h3' ((hw c (List.mem_of_getElem? h1)).trans (hu c (List.mem_of_getElem? h1)).symm)]

/-- **C134.** The same for `find_last`, from the other end. -/
theorem C134_last (b : Build) (w u : World) (f : FileFinder) (am : Bool) (hf : Ready f) (hd : ((candidates f).map Prod.fst).Nodup) :
    findLast b w f am = findLast b u f am ↔ ∀ i, LastThere w (candidates f) i ↔ LastThere u (candidates f) i := by
  have key : ∀ (w u : World) i, LastThere w (candidates f) i → (∀ c ∈ candidates f, u.pathExists c.1 = false) →
      findLast b w f am ≠ findLast b u f am := by
    rintro w u i ⟨⟨c, hc, he⟩, hn⟩ hno h
    obtain ⟨r, e1, e2⟩ := (C46_find_last b w f am hf).1 i c hc he hn
    rw [e1] at h
    cases am with
    | false => rw [((C46_find_last b u f false hf).2 hno).2 rfl] at h; cases h
    | true =>
      obtain ⟨d, r', h1, h2, h3⟩ := ((C46_find_last b u f true hf).2 hno).1 rfl
      rw [h2] at h; cases h
      have := e2.2.1.trans he
      rw [h3.2.1, hno d (List.mem_of_getElem? h1)] at this; cases this
  rcases last_or_none w (candidates f) with ⟨i, hi⟩ | hw <;> rcases last_or_none u (candidates f) with ⟨j, hj⟩ | hu
  · obtain ⟨⟨c, hc, he⟩, hn⟩ := hi
    obtain ⟨⟨d, hdj, hde⟩, hn'⟩ := hj
    obtain ⟨r, e1, e2⟩ := (C46_find_last b w f am hf).1 i c hc he hn
    obtain ⟨r', e1', e2'⟩ := (C46_find_last b u f am hf).1 j d hdj hde hn'
    constructor
    · intro h
      rw [e1, e1'] at h; cases h
      have := nodup_fst hd hc hdj (e2.1.symm.trans e2'.1)
      subst this
      intro k
      exact ⟨fun h => by rw [last_unique h ⟨⟨c, hc, he⟩, hn⟩]; exact ⟨⟨d, hdj, hde⟩, hn'⟩,
        fun h => by rw [last_unique h ⟨⟨d, hdj, hde⟩, hn'⟩]; exact ⟨⟨c, hc, he⟩, hn⟩⟩
    · intro h
      have := last_unique ((h i).1 ⟨⟨c, hc, he⟩, hn⟩) ⟨⟨d, hdj, hde⟩, hn'⟩
      subst this
      rw [hc] at hdj; cases hdj
      rw [e1, e1', reports_eq e2 e2' (he.trans hde.symm)]
  · exact ⟨fun h => absurd h (key w u i hi hu), fun h => absurd ((h i).1 hi) (no_last hu i)⟩
  · exact ⟨fun h => absurd h.symm (key u w j hj hw), fun h => absurd ((h j).2 hj) (no_last hw j)⟩
  · refine ⟨fun _ i => ⟨fun h => absurd h (no_last hw i), fun h => absurd h (no_last hu i)⟩, fun _ => ?_⟩
    cases am with
    | false => rw [((C46_find_last b w f false hf).2 hw).2 rfl, ((C46_find_last b u f false hf).2 hu).2 rfl]
    | true =>
      obtain ⟨c, r, h1, h2, h3⟩ := ((C46_find_last b w f true hf).2 hw).1 rfl
      obtain ⟨d, r', h1', h2', h3'⟩ := ((C46_find_last b u f true hf).2 hu).1 rfl
      rw [h1] at h1'; cases h1'
      rw [h2, h2', reports_eq h3 h3' ((hw c (List.mem_of_getElem? h1)).trans (hu c (List.mem_of_getElem? h1)).symm)]

theorem findAll_congr (b : Build) (w u : World) (f : FileFinder) (hf : Ready f)
    (hc : ∀ c ∈ candidates f, w.pathExists c.1 = u.pathExists c.1) (am : Bool) :
    findAll b w f am = findAll b u f am ∧ findAllOrFirst b w f = findAllOrFirst b u f := by
  have hall : ∀ am, findAll b w f am = findAll b u f am := by
    intro am
    have hfil : (candidates f).filter (hit w am) = (candidates f).filter (hit u am) :=
      List.filter_congr fun c h => by simp only [hit, hc c h]
    rw [findAll_eq b w f am hf, findAll_eq b u f am hf, hfil,
      numberFlat_congr _ (fun c h => hc c (List.mem_filter.1 h).1)]
  refine ⟨hall am, ?_⟩
  rcases some_or_none w f with hx | hx
  · rw [(C48_find_all_or_first b w f hf).1 hx, hall,
      (C48_find_all_or_first b u f hf).1 (hx.imp fun c h => ⟨h.1, by rw [← hc c h.1]; exact h.2⟩)]
  · obtain ⟨c, r, h1, h2, h3⟩ := (C48_find_all_or_first b w f hf).2.1 hx
    obtain ⟨c', r', h1', h2', h3'⟩ := (C48_find_all_or_first b u f hf).2.1 fun c h => by rw [← hc c h]; exact hx c h
    rw [h1] at h1'; cases h1'
    rw [h2, h2', reports_eq h3 h3' (hc c (List.mem_of_getElem? h1))]

theorem listed_there {b : Build} {w : World} {f : FileFinder} {am : Bool} (hf : Ready f) (hsmall : (candidates f).length < 65536)
    {c : OsStr × String} (hc : c ∈ candidates f) (he : w.pathExists c.1 = true) :
    ∃ rs, findAll b w f am = .ok rs ∧ ∃ r ∈ rs, r.path = c.1 ∧ r.exists' = true := by
  have hs : (listed w am f).length < 65536 := Nat.lt_of_le_of_lt (List.length_filter_le _ _) hsmall
  have hm : c ∈ listed w am f := List.mem_filter.2 ⟨hc, by simp [he]⟩
  obtain ⟨rs, e, -, h⟩ := (C47_find_all b w f am hf hs).1 (List.ne_nil_of_mem hm)
  obtain ⟨i, hi⟩ := List.mem_iff_getElem?.1 hm
  obtain ⟨r, h1, h2⟩ := h i c hi
  exact ⟨rs, e, r, List.mem_of_getElem? h1, h2.1, h2.2.1.trans he⟩

/-- **C134.** On the other hand `find_all` and `find_all_or_first` hang on every candidate: their answer is the same in two worlds exactly if
the same candidates exist. (Fewer than `2^16` candidates, see C47.) -/
theorem C134_all (b : Build) (w u : World) (f : FileFinder) (am : Bool) (hf : Ready f) (hsmall : (candidates f).length < 65536) :
    (findAll b w f am = findAll b u f am ↔ ∀ c ∈ candidates f, w.pathExists c.1 = u.pathExists c.1) ∧
    (findAllOrFirst b w f = findAllOrFirst b u f ↔ ∀ c ∈ candidates f, w.pathExists c.1 = u.pathExists c.1) := by
  constructor
  · refine ⟨fun h c hc => ?_, fun h => (findAll_congr b w u f hf h am).1⟩
    have key : ∀ w u : World, findAll b w f am = findAll b u f am → w.pathExists c.1 = true → u.pathExists c.1 = true := by
      intro w u h he
      obtain ⟨rs, e, r, hr, h1, h2⟩ := listed_there (b := b) (am := am) hf hsmall hc he
      obtain ⟨-, -, -, -, -, h3, -⟩ := C51_truthful b u f hf r (.all am rs (h ▸ e) hr)
      rw [← h1, ← h3, h2]
    exact Bool.eq_iff_iff.2 ⟨key w u h, key u w h.symm⟩
  · refine ⟨fun h c hc => ?_, fun h => (findAll_congr b w u f hf h false).2⟩
    have key : ∀ w u : World, findAllOrFirst b w f = findAllOrFirst b u f → w.pathExists c.1 = true → u.pathExists c.1 = true := by
      intro w u h he
      obtain ⟨rs, e, r, hr, h1, h2⟩ := listed_there (b := b) (am := false) hf hsmall hc he
      rw [← (C48_find_all_or_first b w f hf).1 ⟨c, hc, he⟩] at e
      obtain ⟨-, -, -, -, -, h3, -⟩ := C51_truthful b u f hf r (.allOrFirst rs (h ▸ e) hr)
      rw [← h1, ← h3, h2]
    exact Bool.eq_iff_iff.2 ⟨key w u h, key u w h.symm⟩

/-! ## `create_config!` -/

theorem consulted_mem {w : World} {cs : List OsStr} {p : OsStr} (h : p ∈ consulted w cs) : p ∈ cs := by
  induction cs with
  | nil => cases h
  | cons q cs ih =>
    simp only [consulted] at h
    split at h
    · rw [List.mem_singleton] at h; simp [h]
    · rcases List.mem_cons.1 h with rfl | h
      · simp
      · simp [ih h]

theorem find_consulted {w v : World} {cs : List OsStr} {q : OsStr} (hq : cs.find? (fun p => w.pathExists p) = some q)
    (hm : v.pathExists q = true) : ∃ p ∈ consulted w cs, cs.find? (fun p => v.pathExists p) = some p ∧ v.pathExists p = true ∧
      (p = q ∨ w.pathExists p = false) := by
  induction cs with
  | nil => cases hq
  | cons a cs ih =>
    simp only [consulted]
    rw [List.find?_cons] at hq ⊢
    cases ha : w.pathExists a with
    | true =>
      rw [ha] at hq; cases hq
      rw [hm]
      exact ⟨q, by simp, rfl, hm, Or.inl rfl⟩
    | false =>
      rw [ha] at hq
      cases hv : v.pathExists a with
      | true => exact ⟨a, by simp, rfl, hv, Or.inr ha⟩
      | false =>
        obtain ⟨p, h1, h2, h3, h4⟩ := ih hq
        exact ⟨p, by simp [h1], h2, h3, h4⟩

theorem consulted_all {w : World} {cs : List OsStr} (h : ∀ p ∈ cs, w.pathExists p = false) : consulted w cs = cs := by
  induction cs with
  | nil => rfl
  | cons a cs ih => simp only [consulted]; rw [h a (by simp), ih fun p hp => h p (by simp [hp])]; rfl

theorem chosen_congr {w v v' : World} {cs : List OsStr} (hmono : ∀ p, w.pathExists p = true → v.pathExists p = true)
    (h : ∀ p ∈ consulted w cs, v'.pathExists p = v.pathExists p) : chosen v' cs = chosen v cs := by
  have : cs.find? (fun p => v'.pathExists p) = cs.find? (fun p => v.pathExists p) := by
    induction cs with
    | nil => rfl
    | cons a cs ih =>
      rw [List.find?_cons, List.find?_cons]
      simp only [consulted] at h
      cases ha : w.pathExists a with
      | true =>
        rw [ha] at h
        rw [h a (by simp), hmono a ha]
      | false =>
        rw [ha] at h
        rw [h a (by simp), ih fun p hp => h p (by simp [hp])]
  unfold chosen; rw [this]

/-- Two worlds that are the same at the places in `S`. -/
structure SameAt (S : Nat → Prop) (w u : World) : Prop where
  locate : u.locate = w.locate
  baseDirs : u.baseDirs = w.baseDirs
  cwd : u.cwd = w.cwd
  disk : ∀ s, S s → u.disk s = w.disk s
  room : ∀ s, S s → u.room s = w.room s

/-- Nothing has changed but at the places in `S`, and nothing is gone. -/
structure ChangedAt (S : Nat → Prop) (w w' : World) : Prop where
  same : SameEnv w w'
  disk : ∀ s, ¬ S s → w'.disk s = w.disk s
  there : ∀ p, w.pathExists p = true → w'.pathExists p = true

theorem ChangedAt.refl (S : Nat → Prop) (w : World) : ChangedAt S w w := ⟨rfl, fun _ _ => rfl, fun _ h => h⟩
theorem ChangedAt.trans {S : Nat → Prop} {w w' w'' : World} (h : ChangedAt S w w') (h' : ChangedAt S w' w'') : ChangedAt S w w'' :=
  ⟨h.same.trans h'.same, fun s hs => (h'.disk s hs).trans (h.disk s hs), fun p hp => h'.there p (h.there p hp)⟩

theorem sameAt_put {S : Nat → Prop} {w u : World} (h : SameAt S w u) (s : Nat) (n : Node) : SameAt S (w.put s n) (u.put s n) := by
  refine ⟨h.locate, h.baseDirs, h.cwd, fun t ht => ?_, fun t ht => h.room t ht⟩
  simp only [World.put]
  split
  · rfl
  · exact h.disk t ht

theorem sameAt_append {S : Nat → Prop} {w u : World} (h : SameAt S w u) {s : Nat} (hs : S s) (bs : List UInt8) :
    SameAt S (w.appendBytes s bs) (u.appendBytes s bs) := by
  unfold World.appendBytes
  rw [h.disk s hs]
  split
  · exact sameAt_put h _ _
  · exact h

theorem fsWrite_at {S : Nat → Prop} {w u : World} (h : SameAt S w u) {p : OsStr} (hp : S (w.locate p)) (text : String) :
    (w.fsWrite p text).1 = (u.fsWrite p text).1 ∧ SameAt S (w.fsWrite p text).2 (u.fsWrite p text).2 := by
  have hopen : (∃ e, w.openTrunc p = .error e ∧ u.openTrunc p = .error e) ∨
      ∃ w1 u1, w.openTrunc p = .ok w1 ∧ u.openTrunc p = .ok u1 ∧ SameAt S w1 u1 := by
    unfold World.openTrunc
    rw [h.locate, h.disk _ hp]
    split
    · exact Or.inl ⟨_, rfl, rfl⟩
    · exact Or.inr ⟨_, _, rfl, rfl, sameAt_put h _ _⟩
    · exact Or.inl ⟨_, rfl, rfl⟩
    · exact Or.inl ⟨_, rfl, rfl⟩
    · exact Or.inr ⟨_, _, rfl, rfl, sameAt_put h _ _⟩
  unfold World.fsWrite
  rcases hopen with ⟨e, h1, h2⟩ | ⟨w1, u1, h1, h2, h3⟩
  · rw [h1, h2]; exact ⟨rfl, h⟩
  · rw [h1, h2, h.locate, h.room _ hp]
    dsimp only
    split
    · split
      · exact ⟨rfl, sameAt_append h3 hp _⟩
      · exact ⟨rfl, sameAt_append h3 hp _⟩
    · exact ⟨rfl, sameAt_append h3 hp _⟩

/-- A layer whose file, if it has one, is at a place in `S`. -/
inductive KeptAt (S : Nat → Prop) (locate : OsStr → Nat) : Layer → Prop
  | memory (v : Value) : KeptAt S locate (.memory v)
  | environment (pre : String) : KeptAt S locate (.environment pre)
  | file (cd : Codec) (p : OsStr) (h : S (locate p)) : KeptAt S locate (.file (textHandler cd) p)

theorem layer_at {S : Nat → Prop} {w u : World} {l : Layer} (hl : KeptAt S w.locate l) (h : SameAt S w u) (v : Value) :
    (l.writeValue w v).1 = (l.writeValue u v).1 ∧ SameAt S (l.writeValue w v).2 (l.writeValue u v).2 := by
  cases hl with
  | memory x => exact ⟨rfl, h⟩
  | environment pre => exact ⟨rfl, h⟩
  | file cd p hp =>
    simp only [Layer.writeValue, textHandler]
    cases cd.print v.toData with
    | error m => exact ⟨rfl, h⟩
    | ok text =>
      obtain ⟨h1, h2⟩ := fsWrite_at h hp text
      dsimp only
      generalize w.fsWrite p text = r at h1 h2
      generalize u.fsWrite p text = r' at h1 h2
      obtain ⟨a, w'⟩ := r
      obtain ⟨a', u'⟩ := r'
      cases h1
      cases a <;> exact ⟨rfl, h2⟩

theorem write_changedAt {S : Nat → Prop} {w : World} {l : Layer} (hl : KeptAt S w.locate l) (v : Value) :
    ChangedAt S w (l.writeValue w v).2 := by
  cases hl with
  | memory x => exact ChangedAt.refl S w
  | environment pre => exact ChangedAt.refl S w
  | file cd p hp =>
    generalize hr : (Layer.file (textHandler cd) p).writeValue w v = r
    obtain ⟨res, w'⟩ := r
    obtain ⟨⟨h0, h1⟩, h2⟩ := C57_write cd w p v res w' hr
    have hs : SameEnv w w' := h0
    refine ⟨hs, fun s hs => h1 s fun e => hs (e ▸ hp), fun q hq => ?_⟩
    by_cases e : w.locate q = w.locate p
    · rcases h2 with ⟨m, -, -, e2⟩ | ⟨t, e', -, -, -, e2⟩ | ⟨t, n, code, r, -, -, -, -, e2⟩ | ⟨t, r, -, -, e2, -⟩
      · rw [e2]; exact hq
      · rw [e2]; exact hq
      · unfold World.pathExists; rw [hs.locate, e, e2]
      · unfold World.pathExists; rw [hs.locate, e, e2]
    · rw [pathExists_congr (w := w) (by rw [hs.locate]; exact h1 _ e)]; exact hq

/-- The calls register layers kept in `S`. -/
def CallsAt (S : Nat → Prop) (locate : OsStr → Nat) (args : MacroArgs) (calls : List RegCall) : Prop :=
  ∀ c ∈ calls, match c with
    | .layer _ _ => False
    | .file _ p => S (locate p)
    | .environment _ pre => args.env = some pre
    | .memory _ _ => True

theorem keptAt_of_calls {b : Build} {fm : Formats} {S : Nat → Prop} {locate : OsStr → Nat} {args : MacroArgs} {calls : List RegCall}
    (h : CallsAt S locate args calls) {n : String} {l : Layer} (hg : (register b fm calls).getLayer n = some l) : KeptAt S locate l := by
  rw [(C11_first_wins b fm calls n).1, Option.map_eq_some_iff] at hg
  obtain ⟨e, he, rfl⟩ := hg
  obtain ⟨c, hc, ho⟩ := List.mem_filterMap.1 (List.mem_of_find?_eq_some he)
  have := h c hc
  cases c with
  | layer => exact this.elim
  | memory => cases ho; exact .memory _
  | environment => cases ho; exact .environment _
  | file n p =>
    obtain ⟨cd, rfl, -⟩ := offer_file ho
    exact .file cd p this

theorem initLayer_at {S : Nat → Prop} {w u : World} {c : Config} (hc : ∀ n l, c.getLayer n = some l → KeptAt S w.locate l)
    (h : SameAt S w u) (added : Bool) {p : OsStr} (hp : u.pathExists p = w.pathExists p) (l : LayerSpec) (dv : Value) :
    SameAt S (initLayer w c added p l dv) (initLayer u c added p l dv) ∧ ChangedAt S w (initLayer w c added p l dv) := by
  unfold initLayer
  cases l.init with
  | none => exact ⟨h, ChangedAt.refl S w⟩
  | some flag =>
    dsimp only
    rw [hp]
    split
    · cases hg : c.getLayer l.name with
      | none => exact ⟨h, ChangedAt.refl S w⟩
      | some layer => exact ⟨(layer_at (hc _ _ hg) h dv).2, write_changedAt (hc _ _ hg) dv⟩
    · exact ⟨h, ChangedAt.refl S w⟩

theorem exists_at {S : Nat → Prop} {w u v x : World} (hS : SameAt S v x) (hw : ChangedAt S w v) (hu : ChangedAt S u x)
    (hl : u.locate = w.locate) {p : OsStr} (h : u.pathExists p = w.pathExists p) : x.pathExists p = v.pathExists p := by
  by_cases hs : S (w.locate p)
  · refine pathExists_congr ?_
    rw [hS.locate, hw.same.locate]; exact hS.disk _ hs
  · rw [pathExists_congr (w := u) (w' := x) (by rw [hu.same.locate, hl]; exact hu.disk _ hs),
      pathExists_congr (w := w) (w' := v) (by rw [hw.same.locate]; exact hw.disk _ hs), h]

/-- What is chosen later was chosen at first, or has been made at a place where something was chosen. -/
theorem chosen_at {S : Nat → Prop} {w v : World} {cs : List OsStr} {p : OsStr} (hw : ChangedAt S w v)
    (hS : ∀ q, chosen w cs = some q → S (w.locate q)) (h : chosen v cs = some p) : S (w.locate p) ∧ p ∈ consulted w cs := by
  have hnew : ∀ q, w.pathExists q = false → v.pathExists q = true → S (w.locate q) := by
    intro q h1 h2
    by_contra hs
    rw [pathExists_congr (w := w) (w' := v) (by rw [hw.same.locate]; exact hw.disk _ hs), h1] at h2
    cases h2
  cases hf : cs.find? (fun p => w.pathExists p) with
  | some q =>
    have hq : w.pathExists q = true := by simpa using List.find?_some hf
    have hcq : chosen w cs = some q := by unfold chosen; rw [hf]; rfl
    obtain ⟨p', h1, h2, h3, h4⟩ := find_consulted (v := v) hf (hw.there q hq)
    have : chosen v cs = some p' := by unfold chosen; rw [h2]; rfl
    rw [h] at this; cases this
    refine ⟨?_, h1⟩
    rcases h4 with rfl | h4
    · exact hS _ hcq
    · exact hnew _ h4 h3
  | none =>
    have hno : ∀ q ∈ cs, w.pathExists q = false := fun q hq => by simpa using List.find?_eq_none.1 hf q hq
    refine ⟨?_, by rw [consulted_all hno]; exact chosen_mem h⟩
    cases he : v.pathExists p with
    | true => exact hnew _ (hno p (chosen_mem h)) he
    | false => exact hS p (chosen_of_missing (chosen_missing h he).1 hno)

theorem foldl_at {b : Build} {fm : Formats} {args : MacroArgs} {S : Nat → Prop} {w u : World} (dv : Value) (hloc : u.locate = w.locate)
    (hS : ∀ l ∈ args.layers, ∀ q, chosen w (layerCandidates b w args.fileName l) = some q → S (w.locate q))
    (hth : ∀ l ∈ args.layers, ∀ p ∈ consulted w (layerCandidates b w args.fileName l), u.pathExists p = w.pathExists p) (ls : List LayerSpec) :
    (∀ l ∈ ls, l ∈ args.layers) → ∀ (calls : List RegCall) (v x : World), CallsAt S w.locate args calls → SameAt S v x →
    ChangedAt S w v → ChangedAt S u x →
    ∃ calls' v' x', ls.foldl (mStep b fm args.fileName dv) (register b fm calls, v) = (register b fm calls', v') ∧
      ls.foldl (mStep b fm args.fileName dv) (register b fm calls, x) = (register b fm calls', x') ∧
      CallsAt S w.locate args calls' ∧ SameAt S v' x' ∧ ChangedAt S w v' ∧ ChangedAt S u x' := by
  induction ls with
  | nil => intro _ calls v x hc h hv hx; exact ⟨calls, v, x, rfl, rfl, hc, h, hv, hx⟩
  | cons l ls ih =>
    intro hls calls v x hc h hv hx
    rw [List.foldl_cons, List.foldl_cons]
    have hl : l ∈ args.layers := hls l (by simp)
    have hls' : ∀ y ∈ ls, y ∈ args.layers := fun y hy => hls y (by simp [hy])
    have hcand : layerCandidates b x args.fileName l = layerCandidates b v args.fileName l := by
      have : ∀ d : OSDirectory, d.toPathBuf x = d.toPathBuf v := fun d => by unfold OSDirectory.toPathBuf; rw [h.baseDirs, h.cwd]
      unfold layerCandidates
      rw [show OSDirectory.toPathBuf x = OSDirectory.toPathBuf v from funext this]
    have hcand' := hv.same.candidates b args.fileName l
    have hex : ∀ p ∈ consulted w (layerCandidates b w args.fileName l), x.pathExists p = v.pathExists p := fun p hp =>
      exists_at h hv hx hloc (hth l hl p hp)
    have hch : chosen x (layerCandidates b w args.fileName l) = chosen v (layerCandidates b w args.fileName l) :=
      chosen_congr hv.there hex
    unfold mStep
    dsimp only
    rw [hcand, hcand', hch]
    cases hp : chosen v (layerCandidates b w args.fileName l) with
    | none => exact ih hls' calls v x hc h hv hx
    | some p =>
      dsimp only
      obtain ⟨hSp, hcon⟩ := chosen_at hv (hS l hl) hp
      rw [register_append]
      have hc' : CallsAt S w.locate args (calls ++ [.file l.name p]) := by
        intro c hx
        rcases List.mem_append.1 hx with hx | hx
        · exact hc c hx
        · rw [List.mem_singleton] at hx; subst hx; exact hSp
      have hkv : ∀ n l', (register b fm (calls ++ [.file l.name p])).getLayer n = some l' → KeptAt S v.locate l' := fun n l' hg => by
        rw [hv.same.locate]; exact keptAt_of_calls hc' hg
      have hkx : ∀ n l', (register b fm (calls ++ [.file l.name p])).getLayer n = some l' → KeptAt S x.locate l' := fun n l' hg => by
        rw [h.locate]; exact hkv n l' hg
      obtain ⟨g1, g2⟩ := initLayer_at hkv h ((RegCall.file l.name p).offer b fm).isSome (hex p hcon) l dv
      have hxx : SameAt S x x := ⟨rfl, rfl, rfl, fun _ _ => rfl, fun _ _ => rfl⟩
      obtain ⟨-, g3⟩ := initLayer_at hkx hxx ((RegCall.file l.name p).offer b fm).isSome rfl l dv (p := p)
      exact ih hls' _ _ _ hc' g1 (hv.trans g2) (hx.trans g3)

theorem createConfig_at {b : Build} {fm : Formats} {args : MacroArgs} {w u : World} (h : SameDeciding b args w u) :
    ∃ calls w' u', createConfig b fm w args = .ok (register b fm calls, w') ∧ createConfig b fm u args = .ok (register b fm calls, u') ∧
      CallsAt (PlaceTaken b w args) w.locate args calls ∧ SameAt (PlaceTaken b w args) w' u' ∧ ChangedAt (PlaceTaken b w args) w w' ∧
      ChangedAt (PlaceTaken b w args) u u' := by
  obtain ⟨dv, h1, h2⟩ := createConfig_eq b fm w args
  obtain ⟨dv', h1', h2'⟩ := createConfig_eq b fm u args
  rw [h1] at h1'; cases h1'
  obtain ⟨calls, w', u', e1, e2, e3, e4, e5, e6⟩ := foldl_at (b := b) (fm := fm) (S := PlaceTaken b w args) dv h.locate
    (fun l hl q hq => ⟨l, hl, q, hq, rfl⟩) h.there args.layers (fun _ hl => hl)
    [.memory "default" dv] w u (by intro c hc; simp at hc; subst hc; trivial) ⟨h.locate, h.baseDirs, h.cwd, h.disk, h.room⟩
    (ChangedAt.refl _ w) (ChangedAt.refl _ u)
  rw [e1] at h2
  rw [e2] at h2'
  have hreg : (args.env.map fun pre => RegCall.environment "environment" pre).toList.foldl (RegCall.apply b fm) (register b fm calls) =
      register b fm (calls ++ (args.env.map fun pre => RegCall.environment "environment" pre).toList) := by
    unfold register; rw [← List.foldl_append]
  dsimp only at h2 h2'
  rw [hreg] at h2 h2'
  refine ⟨_, w', u', h2, h2', ?_, e4, e5, e6⟩
  intro c hc
  rcases List.mem_append.1 hc with hc | hc
  · exact e3 c hc
  · cases he : args.env with
    | none => rw [he] at hc; cases hc
    | some pre => rw [he] at hc; simp at hc; subst hc; rfl

theorem saves_at {S : Nat → Prop} {c : Config} (xs : List (String × Value)) :
    ∀ w u : World, (∀ n l, c.getLayer n = some l → KeptAt S w.locate l) → SameAt S w u →
      SameAt S (saves c w xs) (saves c u xs) ∧ ChangedAt S w (saves c w xs) := by
  induction xs with
  | nil => intro w u _ h; exact ⟨h, ChangedAt.refl S w⟩
  | cons x xs ih =>
    intro w u hc h
    simp only [saves]
    cases hg : c.getLayer x.1 with
    | none => exact ih w u hc h
    | some l =>
      have h1 := (layer_at (hc _ _ hg) h x.2).2
      have h2 := write_changedAt (hc _ _ hg) x.2
      obtain ⟨g1, g2⟩ := ih _ _ (fun n l' hg' => by rw [h2.same.locate]; exact hc n l' hg') h1
      exact ⟨g1, h2.trans g2⟩

/-- **C134.** `create_config!` and every later save through the layers of its configuration write at no place but those of the files that are
taken (per layer, the first candidate that exists, else the first), and nothing that exists goes away. In particular files further down a search
path are never touched. (Nothing is assumed of names, `init`, or what is on the disk.) -/
theorem C134_written (b : Build) (fm : Formats) (w : World) (args : MacroArgs) (c : Config) (w' : World)
    (h : createConfig b fm w args = .ok (c, w')) (xs : List (String × Value)) :
    (∀ s, ¬ PlaceTaken b w args s → (saves c w' xs).disk s = w.disk s) ∧
    ∀ p, w.pathExists p = true → (saves c w' xs).pathExists p = true := by
  obtain ⟨calls, w1, u1, e1, -, e3, -, e5, -⟩ := createConfig_at (b := b) (fm := fm) (args := args) (w := w) (u := w)
    ⟨rfl, rfl, rfl, fun _ _ _ _ => rfl, fun _ _ => rfl, fun _ _ => rfl⟩
  rw [h] at e1; cases e1
  have := (saves_at (c := register b fm calls) xs w' w' (fun n l hg => by rw [e5.same.locate]; exact keptAt_of_calls e3 hg)
    ⟨rfl, rfl, rfl, fun _ _ => rfl, fun _ _ => rfl⟩).2
  exact ⟨(e5.trans this).disk, (e5.trans this).there⟩

/-- **C134.** What decides. If in two worlds the same consulted candidates exist and the files taken are the same, `create_config!` makes the
same configuration in both, also after any saves the files taken are the same, and if the variables with the prefix are the same, the built value
(or the error) is the same at any time. So whatever happens further down a search path, to a file that another one has taken the place of, or
elsewhere, is without effect. -/
theorem C134_decides (b : Build) (fm : Formats) (w u : World) (args : MacroArgs) (h : SameDeciding b args w u) :
    ∃ c w' u', createConfig b fm w args = .ok (c, w') ∧ createConfig b fm u args = .ok (c, u') ∧
      ∀ xs, (∀ s, PlaceTaken b w args s → (saves c u' xs).disk s = (saves c w' xs).disk s) ∧
        ((∀ pre, args.env = some pre → w.env.filter (Prefixed pre) = u.env.filter (Prefixed pre)) →
          ∀ skip, c.buildValue (saves c w' xs) skip = c.buildValue (saves c u' xs) skip) := by
  obtain ⟨calls, w', u', e1, e2, e3, e4, e5, e6⟩ := createConfig_at (b := b) (fm := fm) h
  have hk : ∀ n l, (register b fm calls).getLayer n = some l → KeptAt (PlaceTaken b w args) w'.locate l := fun n l hg => by
    rw [e5.same.locate]; exact keptAt_of_calls e3 hg
  have hk' : ∀ n l, (register b fm calls).getLayer n = some l → KeptAt (PlaceTaken b w args) u'.locate l := fun n l hg => by
    rw [e4.locate]; exact hk n l hg
  refine ⟨_, w', u', e1, e2, fun xs => ?_⟩
  obtain ⟨s1, s2⟩ := saves_at xs w' u' hk e4
  obtain ⟨-, s3⟩ := saves_at xs u' u' hk' ⟨rfl, rfl, rfl, fun _ _ => rfl, fun _ _ => rfl⟩
  refine ⟨s1.disk, fun henv skip => ?_⟩
  have hs : SameEnv w (saves (register b fm calls) w' xs) := e5.same.trans s2.same
  have hsu : SameEnv u (saves (register b fm calls) u' xs) := e6.same.trans s3.same
  refine C13_only_inputs b fm calls _ _ skip (fun c hc => ?_) fun c hc => ?_
  · have := e3 c hc
    cases c with
    | layer => exact this.elim
    | _ => trivial
  · have := e3 c hc
    cases c with
    | layer => exact this.elim
    | memory => trivial
    | environment n pre =>
      show List.filter _ _ = List.filter _ _
      rw [hs.env, hsu.env]; exact henv pre this
    | file n p =>
      have hd : (saves (register b fm calls) u' xs).disk ((saves (register b fm calls) u' xs).locate p) =
          (saves (register b fm calls) w' xs).disk ((saves (register b fm calls) w' xs).locate p) := by
        rw [s1.locate, hs.locate]; exact s1.disk _ this
      exact ⟨(pathExists_congr hd).symm, (readToString_congr hd).symm⟩

/-! ## A file that takes over -/

/-- The calls of `create_config!` without `init`. -/
def plainCalls (b : Build) (w : World) (args : MacroArgs) (ls : List LayerSpec) : List RegCall :=
  ls.filterMap fun l => (chosen w (layerCandidates b w args.fileName l)).map fun p => RegCall.file l.name p

theorem foldl_plain (b : Build) (fm : Formats) (w : World) (args : MacroArgs) (dv : Value) (ls : List LayerSpec) :
    (∀ l ∈ ls, l.init ≠ some true) → ∀ calls, ls.foldl (mStep b fm args.fileName dv) (register b fm calls, w) =
      (register b fm (calls ++ plainCalls b w args ls), w) := by
  induction ls with
  | nil => intro _ calls; simp [plainCalls]
  | cons l ls ih =>
    intro hi calls
    have ih' := ih fun x hx => hi x (by simp [hx])
    rw [List.foldl_cons]
    unfold mStep
    dsimp only
    cases hp : chosen w (layerCandidates b w args.fileName l) with
    | none =>
      dsimp only
      have : plainCalls b w args (l :: ls) = plainCalls b w args ls := by unfold plainCalls; rw [List.filterMap_cons, hp]; rfl
      rw [this]; exact ih' calls
    | some p =>
      dsimp only
      rw [initLayer_no_init (hi l (by simp)), register_append]
      have : plainCalls b w args (l :: ls) = RegCall.file l.name p :: plainCalls b w args ls := by
        unfold plainCalls; rw [List.filterMap_cons, hp]; rfl
      rw [this]
      have := ih' (calls ++ [.file l.name p])
      unfold mStep at this
      rw [this, List.append_assoc]; rfl

theorem plain_config {b : Build} {fm : Formats} {w : World} {args : MacroArgs} (hi : ∀ l ∈ args.layers, l.init ≠ some true) :
    ∃ dv, valueMapMacro args.default = some dv ∧
      createConfig b fm w args = .ok (register b fm ([RegCall.memory "default" dv] ++ plainCalls b w args args.layers ++
        (args.env.map fun pre => RegCall.environment "environment" pre).toList), w) := by
  obtain ⟨dv, h1, h2⟩ := createConfig_eq b fm w args
  refine ⟨dv, h1, ?_⟩
  rw [h2, foldl_plain b fm w args dv args.layers hi]
  dsimp only
  unfold register
  rw [← List.foldl_append]

theorem offers_cat (b : Build) (fm : Formats) (xs ys : List RegCall) : offers b fm (xs ++ ys) = offers b fm xs ++ offers b fm ys := by
  unfold offers; rw [List.filterMap_append]

theorem offer_file_fst {b : Build} {fm : Formats} {n : String} {p : OsStr} {e : String × Layer} (h : (RegCall.file n p).offer b fm = some e) : e.1 = n := by
  obtain ⟨cd, rfl, -⟩ := offer_file h; rfl

theorem offers_plain (b : Build) (fm : Formats) (w : World) (args : MacroArgs) (l : LayerSpec) (ls : List LayerSpec) :
    offers b fm (plainCalls b w args (l :: ls)) =
      ((chosen w (layerCandidates b w args.fileName l)).bind fun p => (RegCall.file l.name p).offer b fm).toList ++
        offers b fm (plainCalls b w args ls) := by
  unfold plainCalls offers
  rw [List.filterMap_cons]
  cases chosen w (layerCandidates b w args.fileName l) with
  | none => rfl
  | some p =>
    simp only [Option.map_some, Option.bind_some]
    rw [List.filterMap_cons]
    cases (RegCall.file l.name p).offer b fm <;> rfl

theorem find_plain_congr (b : Build) (fm : Formats) (w u : World) (args : MacroArgs) (n : String) (ls : List LayerSpec)
    (h : ∀ l ∈ ls, l.name = n → chosen u (layerCandidates b u args.fileName l) = chosen w (layerCandidates b w args.fileName l)) :
    (offers b fm (plainCalls b u args ls)).find? (fun e => e.1 == n) = (offers b fm (plainCalls b w args ls)).find? (fun e => e.1 == n) := by
  induction ls with
  | nil => rfl
  | cons l ls ih =>
    rw [offers_plain, offers_plain, List.find?_append, List.find?_append, ih fun x hx => h x (by simp [hx])]
    by_cases hn : l.name = n
    · rw [h l (by simp) hn]
    · have : ∀ w : World, (((chosen w (layerCandidates b w args.fileName l)).bind fun p => (RegCall.file l.name p).offer b fm).toList).find?
          (fun e => e.1 == n) = none := by
        intro w
        rw [List.find?_eq_none]
        intro e he
        rw [Option.mem_toList, Option.bind_eq_some_iff] at he
        obtain ⟨p, -, ho⟩ := he
        rw [offer_file_fst ho]; simpa using hn
      rw [this u, this w]

theorem find_plain_none (b : Build) (fm : Formats) (w : World) (args : MacroArgs) (n : String) (ls : List LayerSpec)
    (h : ∀ l ∈ ls, l.name ≠ n) : (offers b fm (plainCalls b w args ls)).find? (fun e => e.1 == n) = none := by
  rw [List.find?_eq_none]
  intro e he
  unfold offers plainCalls at he
  obtain ⟨c, hc, ho⟩ := List.mem_filterMap.1 he
  obtain ⟨l, hl, hm⟩ := List.mem_filterMap.1 hc
  rw [Option.map_eq_some_iff] at hm
  obtain ⟨p, -, rfl⟩ := hm
  rw [offer_file_fst ho]
  simpa using h l hl

/-- **C134.** A file that takes over. Without `init`, let the candidate `p` of the layer `l` exist in `u` and none before it; let the other layers
take the same files in `w` and in `u`. Then the configurations made in `w` and in `u` have the same layers under all other names, and in `u` the
layer `l` is the file `p` and nothing else: whatever `l` read in `w`, a file further down the search path, is no longer read at all. -/
theorem C134_takeover (b : Build) (fm : Formats) (w u : World) (args : MacroArgs) (l : LayerSpec) (before after : List OsStr) (p : OsStr)
    (hplain : PlainName args.fileName) (hi : ∀ l ∈ args.layers, l.init ≠ some true) (hn : (args.layers.map LayerSpec.name).Nodup)
    (hl : l ∈ args.layers) (hdef : l.name ≠ "default") (hcs : layerCandidates b u args.fileName l = before ++ p :: after)
    (hp : u.pathExists p = true) (hb : ∀ q ∈ before, u.pathExists q = false)
    (hsame : ∀ l' ∈ args.layers, l'.name ≠ l.name →
      chosen u (layerCandidates b u args.fileName l') = chosen w (layerCandidates b w args.fileName l')) :
    ∃ c c', createConfig b fm w args = .ok (c, w) ∧ createConfig b fm u args = .ok (c', u) ∧
      (∀ n, n ≠ l.name → c'.getLayer n = c.getLayer n) ∧
      ∃ cd, c'.getLayer l.name = some (.file (textHandler cd) p) ∧
        ((pathExtension p = some (os "toml") ∧ b.toml = true ∧ cd = fm.toml) ∨
         (pathExtension p = some (os "json") ∧ b.json = true ∧ cd = fm.json)) := by
  obtain ⟨dv, h1, h2⟩ := plain_config (b := b) (fm := fm) (w := w) hi
  obtain ⟨dv', h1', h2'⟩ := plain_config (b := b) (fm := fm) (w := u) hi
  rw [h1] at h1'; cases h1'
  refine ⟨_, _, h2, h2', fun n hne => ?_, ?_⟩
  · rw [(C11_first_wins b fm _ n).1, (C11_first_wins b fm _ n).1]
    simp only [offers_cat, List.find?_append]
    rw [find_plain_congr b fm w u args n args.layers fun l' hl' hn' => hsame l' hl' (by rw [hn']; exact hne)]
  · have hch : chosen u (layerCandidates b u args.fileName l) = some p := by
      unfold chosen
      rw [hcs, List.find?_append, List.find?_eq_none.2 (fun q hq => by simp [hb q hq]), List.find?_cons, hp]; rfl
    have hoff : ∃ cd, (RegCall.file l.name p).offer b fm = some (l.name, .file (textHandler cd) p) ∧
        ((pathExtension p = some (os "toml") ∧ b.toml = true ∧ cd = fm.toml) ∨
         (pathExtension p = some (os "json") ∧ b.json = true ∧ cd = fm.json)) := by
      have hm : p ∈ layerCandidates b u args.fileName l := by rw [hcs]; simp
      unfold layerCandidates at hm
      obtain ⟨folder, -, hm⟩ := List.mem_flatMap.1 hm
      obtain ⟨ext, hext, rfl⟩ := List.mem_map.1 hm
      have hx : (ext = "toml" ∧ b.toml = true) ∨ (ext = "json" ∧ b.json = true) := by
        unfold enabled at hext
        rcases List.mem_append.1 hext with h | h
        · left; revert h; cases b.toml <;> simp
        · right; revert h; cases b.json <;> simp
      rcases hx with ⟨rfl, hb⟩ | ⟨rfl, hb⟩
      · have := C50_extension folder args.fileName "toml" (by decide) (by decide) (by decide) |>.2 hplain
        exact ⟨fm.toml, by simp only [RegCall.offer]; rw [if_pos ⟨hb, this⟩], Or.inl ⟨this, hb, rfl⟩⟩
      · have := C50_extension folder args.fileName "json" (by decide) (by decide) (by decide) |>.2 hplain
        refine ⟨fm.json, ?_, Or.inr ⟨this, hb, rfl⟩⟩
        simp only [RegCall.offer]
        rw [if_neg (by rw [this]; rintro ⟨-, h⟩; revert h; decide), if_pos ⟨hb, this⟩]
    obtain ⟨cd, ho, hcd⟩ := hoff
    refine ⟨cd, ?_, hcd⟩
    rw [(C11_first_wins b fm _ l.name).1]
    simp only [offers_cat, List.find?_append]
    have hd : (offers b fm [RegCall.memory "default" dv]).find? (fun e => e.1 == l.name) = none := by
      simp [offers, RegCall.offer, Ne.symm hdef]
    obtain ⟨l1, l2, e⟩ := List.append_of_mem hl
    have hl1 : ∀ x ∈ l1, x.name ≠ l.name := by
      rw [e, List.map_append, List.nodup_append] at hn
      intro x hx
      exact hn.2.2 _ (List.mem_map_of_mem hx) _ (by simp)
    have : (offers b fm (plainCalls b u args args.layers)).find? (fun e => e.1 == l.name) = some (l.name, .file (textHandler cd) p) := by
      rw [e]
      have : plainCalls b u args (l1 ++ l :: l2) = plainCalls b u args l1 ++ plainCalls b u args (l :: l2) := by
        unfold plainCalls; rw [List.filterMap_append]
      rw [this, offers_cat, List.find?_append, find_plain_none b fm u args l.name l1 hl1, offers_plain, hch]
      simp [ho]
    rw [hd, this]; rfl

/-! ## Examples -/

/-- A world in which the given places hold a file. -/
def exTier (locate : OsStr → Nat) (files : Nat → Option String) : World :=
  { locate := locate, disk := fun s => match files s with | some t => .file (utf8 t) none none | none => .absent none,
    room := fun _ => none, env := [], baseDirs := some ⟨os "/h", os "/h/c", os "/h/p"⟩, cwd := none }
/-- The places of the candidates of `exFinder`. -/
def exTierAt (p : OsStr) : Nat :=
  if p = os "/a/conf.toml" then 1 else if p = os "/a/conf.json" then 2 else if p = os "/b/conf.toml" then 3 else if p = os "/b/conf.json" then 4 else 5

/-- `/a/conf.json` is found, whether there is a `/b/conf.toml` or not. -/
example : findFirst exBuild (exTier exTierAt fun s => if s = 2 then some "x" else none) exFinder false =
    findFirst exBuild (exTier exTierAt fun s => if s = 2 then some "y" else if s = 3 then some "z" else none) exFinder false := by
  refine (C134_first exBuild _ _ exFinder false exFinder_ready (by decide)).2 fun i => ?_
  have key : ∀ (w : World), w.pathExists (os "/a/conf.toml") = false → w.pathExists (os "/a/conf.json") = true →
      ∀ i, FirstThere w (candidates exFinder) i ↔ i = 1 := by
    intro w h1 h2 i
    have h : FirstThere w (candidates exFinder) 1 := by
      refine ⟨⟨(os "/a/conf.json", "json"), by decide, h2⟩, fun j d hj hd => ?_⟩
      have : j = 0 := by omega
      subst this
      have : (candidates exFinder)[0]? = some (os "/a/conf.toml", "toml") := by decide
      rw [this] at hd; cases hd; exact h1
    exact ⟨fun h' => first_unique h' h, fun e => e ▸ h⟩
  rw [key _ (by decide) (by decide), key _ (by decide) (by decide)]

/-- `/b/conf.toml` is the last in both worlds. -/
example : findLast exBuild (exTier exTierAt fun s => if s = 3 then some "x" else none) exFinder true =
    findLast exBuild (exTier exTierAt fun s => if s = 3 then some "y" else if s = 1 then some "z" else none) exFinder true := by
  refine (C134_last exBuild _ _ exFinder true exFinder_ready (by decide)).2 fun i => ?_
  have key : ∀ (w : World), w.pathExists (os "/b/conf.toml") = true → w.pathExists (os "/b/conf.json") = false →
      ∀ i, LastThere w (candidates exFinder) i ↔ i = 2 := by
    intro w h1 h2 i
    have h : LastThere w (candidates exFinder) 2 := by
      refine ⟨⟨(os "/b/conf.toml", "toml"), by decide, h1⟩, fun j d hj hd => ?_⟩
      have hl : (candidates exFinder).length = 4 := by decide
      have := (List.getElem?_eq_some_iff.1 hd).1
      have : j = 3 := by omega
      subst this
      have : (candidates exFinder)[3]? = some (os "/b/conf.json", "json") := by decide
      rw [this] at hd; cases hd; exact h2
    exact ⟨fun h' => last_unique h' h, fun e => e ▸ h⟩
  rw [key _ (by decide) (by decide), key _ (by decide) (by decide)]

/-- A file further down the search path shows in `find_all`. -/
example : findAll exBuild (exTier exTierAt fun s => if s = 2 then some "x" else none) exFinder false ≠
    findAll exBuild (exTier exTierAt fun s => if s = 2 then some "x" else if s = 3 then some "z" else none) exFinder false := fun h => by
  have := ((C134_all exBuild _ _ exFinder false exFinder_ready (by decide)).1).1 h (os "/b/conf.toml", "toml") (by decide)
  revert this
  decide

/-- The directories `/a` and `/b` for one layer, then `/b` alone, to be initialised. -/
def exTierPlaces (p : OsStr) : Nat := if p = os "/a/f.toml" then 1 else if p = os "/b/f.toml" then 2 else if p = os "/c/f.toml" then 4 else 3
def exTierArgs : MacroArgs :=
  { fileName := "f", default := [("text", .string "dflt")], env := some "APP_",
    layers := [⟨"one", [.path "/a", .path "/b"], none⟩, ⟨"two", [.path "/c"], some true⟩] }
/-- The same without `init`. -/
def exTierArgs0 : MacroArgs := { exTierArgs with layers := [⟨"one", [.path "/a", .path "/b"], none⟩, ⟨"two", [.path "/c"], none⟩] }
def exTierA : World := exTier exTierPlaces fun s => if s = 1 then some "hi" else none
/-- A file in `/b` and an unrelated one. -/
def exTierB : World := exTier exTierPlaces fun s => if s = 1 then some "hi" else if s = 2 then some "bad" else if s = 3 then some "other" else none
/-- Only the file in `/b`. -/
def exTierC : World := exTier exTierPlaces fun s => if s = 2 then some "bad" else none

/-- The file in `/b` is without effect as long as there is one in `/a`. -/
theorem exTier_same : SameDeciding exB1 exTierArgs exTierA exTierB := by
  have h : ∀ s, PlaceTaken exB1 exTierA exTierArgs s → s = 1 ∨ s = 4 := by
    rintro s ⟨l, hl, p, hp, rfl⟩
    simp only [exTierArgs, List.mem_cons, List.not_mem_nil, or_false] at hl
    rcases hl with rfl | rfl
    · left
      have : chosen exTierA (layerCandidates exB1 exTierA "f" ⟨"one", [.path "/a", .path "/b"], none⟩) = some (os "/a/f.toml") := by decide
      rw [show exTierArgs.fileName = "f" from rfl, this] at hp; cases hp; decide
    · right
      have : chosen exTierA (layerCandidates exB1 exTierA "f" ⟨"two", [.path "/c"], some true⟩) = some (os "/c/f.toml") := by decide
      rw [show exTierArgs.fileName = "f" from rfl, this] at hp; cases hp; decide
  refine ⟨rfl, rfl, rfl, fun l hl p hp => ?_, fun s hs => ?_, fun _ _ => rfl⟩
  · simp only [exTierArgs, List.mem_cons, List.not_mem_nil, or_false] at hl
    rcases hl with rfl | rfl
    · have : consulted exTierA (layerCandidates exB1 exTierA "f" ⟨"one", [.path "/a", .path "/b"], none⟩) = [os "/a/f.toml"] := by decide
      rw [show exTierArgs.fileName = "f" from rfl, this, List.mem_singleton] at hp
      subst hp; decide
    · have : consulted exTierA (layerCandidates exB1 exTierA "f" ⟨"two", [.path "/c"], some true⟩) = [os "/c/f.toml"] := by decide
      rw [show exTierArgs.fileName = "f" from rfl, this, List.mem_singleton] at hp
      subst hp; decide
  · rcases h s hs with rfl | rfl <;> rfl

example : ∃ c w' u', createConfig exB1 exFormats exTierA exTierArgs = .ok (c, w') ∧ createConfig exB1 exFormats exTierB exTierArgs = .ok (c, u') ∧
    ∀ skip, c.buildValue w' skip = c.buildValue u' skip := by
  obtain ⟨c, w', u', h1, h2, h3⟩ := C134_decides exB1 exFormats exTierA exTierB exTierArgs exTier_same
  exact ⟨c, w', u', h1, h2, (h3 []).2 fun _ _ => rfl⟩

/-- The run makes the file in `/c` (place 4), and leaves the one in `/b` alone whatever is saved. -/
example (c : Config) (w' : World) (h : createConfig exB1 exFormats exTierB exTierArgs = .ok (c, w')) (xs : List (String × Value)) :
    (saves c w' xs).disk 2 = .file (utf8 "bad") none none := by
  refine (C134_written exB1 exFormats exTierB exTierArgs c w' h xs).1 2 ?_
  rintro ⟨l, hl, p, hp, hs⟩
  simp only [exTierArgs, List.mem_cons, List.not_mem_nil, or_false] at hl
  rcases hl with rfl | rfl
  · have : chosen exTierB (layerCandidates exB1 exTierB "f" ⟨"one", [.path "/a", .path "/b"], none⟩) = some (os "/a/f.toml") := by decide
    rw [show exTierArgs.fileName = "f" from rfl, this] at hp; cases hp; revert hs; decide
  · have : chosen exTierB (layerCandidates exB1 exTierB "f" ⟨"two", [.path "/c"], some true⟩) = some (os "/c/f.toml") := by decide
    rw [show exTierArgs.fileName = "f" from rfl, this] at hp; cases hp; revert hs; decide

/-- In `exTierC` the layer `one` reads the file in `/b`; in `exTierB` there is one in `/a` and it takes over. -/
example : ∃ c c', createConfig exB1 exFormats exTierC exTierArgs0 = .ok (c, exTierC) ∧
    createConfig exB1 exFormats exTierB exTierArgs0 = .ok (c', exTierB) ∧ c'.getLayer "two" = c.getLayer "two" ∧
    ∃ cd, c'.getLayer "one" = some (.file (textHandler cd) (os "/a/f.toml")) := by
  obtain ⟨c, c', h1, h2, h3, cd, h4, -⟩ := C134_takeover exB1 exFormats exTierC exTierB exTierArgs0 ⟨"one", [.path "/a", .path "/b"], none⟩
    [] [os "/b/f.toml"] (os "/a/f.toml") (plain_of _ (by decide)) (by decide) (by decide) (by simp [exTierArgs0]) (by decide) (by decide)
    (by decide) (by simp) (by
      intro l hl hne
      simp only [exTierArgs0, List.mem_cons, List.not_mem_nil, or_false] at hl
      rcases hl with rfl | rfl
      · exact absurd rfl hne
      · decide)
  exact ⟨c, c', h1, h2, h3 "two" (by decide), cd, h4⟩
example : chosen exTierC (layerCandidates exB1 exTierC "f" ⟨"one", [.path "/a", .path "/b"], none⟩) = some (os "/b/f.toml") := by decide

end Verif.Props
