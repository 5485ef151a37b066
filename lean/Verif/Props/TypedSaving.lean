import Verif.Props.TypedLayers
import Verif.Props.TomlSaving
/-!
# C115: saving settings given in part into a TOML layer
-/
namespace Verif.Props
open Verif Verif.Spec

variable {limit : Nat} {b : Build} {fm : Formats} {calls : List RegCall} {w w' : World} {lower upper : List (String × Layer)} {name : String}
  {cd : Codec} {path : OsStr} {v : Value}

theorem forall2_filterMap {α β γ : Type} {f : α → Option β} {R : β → γ → Prop} (l₁ : List α) (a : α) (l₂ : List α) (x : β) (y : γ) (s₁ s₂ : List γ)
    (h₁ : List.Forall₂ R (l₁.filterMap f) s₁) (ha : f a = some x) (hx : R x y) (h₂ : List.Forall₂ R (l₂.filterMap f) s₂) :
    List.Forall₂ R ((l₁ ++ a :: l₂).filterMap f) (s₁ ++ y :: s₂) := by
  rw [List.filterMap_append, List.filterMap_cons, ha]
  exact List.rel_append h₁ (List.Forall₂.cons hx h₂)

/-- With what the saved settings look like when they are read back. -/
theorem settings_saved (h : SavedToml limit b fm calls w w' lower upper name cd path v) (structs : Nat → List (String × Ty))
    (hs : ∀ n, Survives (.struct (structs n))) (hsc : ∀ n, Concrete (.struct (structs n))) (hso : ∀ n, OmitsNone (.struct (structs n)))
    (fs : List (String × Ty)) (hf : InParts fs) (hT : Survives (.struct fs)) (hTc : Concrete (.struct fs)) (hTo : OmitsNone (.struct fs))
    (mine : List (String × Data)) (hd : HasType structs (.struct fs) (.struct mine)) (hv : ser (.struct mine) = .ok v) :
    ∃ k0, ∀ k, k0 ≤ k → ∃ mine', DSame (.struct mine) (.struct mine') ∧ FitsParts fs mine' ∧
      ∀ before after : List (List (String × Data)),
        List.Forall₂ (fun (x : Value) s => (∀ p, ¬ NullEntry x p) ∧ deAt structs k (.struct fs) x = .ok (.struct s))
          (lower.filterMap fun e => (e.2.readValue w).toOption) before →
        List.Forall₂ (fun (x : Value) s => (∀ p, ¬ NullEntry x p) ∧ deAt structs k (.struct fs) x = .ok (.struct s))
          (upper.filterMap fun e => (e.2.readValue w).toOption) after →
        ∀ skip built, (register b fm calls).buildValue w' skip = .ok built →
          deAt structs k (.struct fs) built = .ok (.struct ((before ++ mine' :: after).foldl overlaidFields (nothingGiven fs))) := by
  obtain ⟨r, hr, k0, hk⟩ := C84_typed h.like structs hs hsc hso (.struct fs) hT hTc hTo (.struct mine) hd v hv h.depth w w' path h.ok h.readable
  obtain ⟨r', hr', -, hnn⟩ := h.after
  have hr2 : (Layer.file (textHandler cd) path).readValue w' = .ok r := hr
  rw [hr2] at hr'; cases hr'
  refine ⟨k0, fun k hk' => ?_⟩
  obtain ⟨d', hd', hsame⟩ := hk k hk'
  have hm : ∃ m, r = .map m := by
    refine (isMap_cases r).resolve_right fun hh => ?_
    cases r <;> simp [deAt, de, deStruct, Value.isMap] at hd' hh
  obtain ⟨m, rfl⟩ := hm
  have hur : UniqueKeys (.map m) := by
    refine h.proper (name, .file (textHandler cd) path) (by rw [h.layers]; simp) w' (.map m) hr2
  obtain ⟨mine', rfl, -⟩ := (de_struct_ok _ fs (InParts.nodup hf) m (uniqueKeys_map.1 hur).1 _).1 hd'
  refine ⟨mine', hsame, fits_of_de hf hur hd', fun before after hb ha skip built hbuilt => ?_⟩
  refine C114_build b fm calls w' skip built hbuilt h.proper structs k fs hf _ ?_
  have hothers := save_readings h.builtIn h.layers h.places h.ok
  have el : lower.filterMap (fun e => (e.2.readValue w').toOption) = lower.filterMap fun e => (e.2.readValue w).toOption :=
    List.filterMap_congr fun e he => by rw [hothers e (List.mem_append_left _ he)]
  have eu : upper.filterMap (fun e => (e.2.readValue w').toOption) = upper.filterMap fun e => (e.2.readValue w).toOption :=
    List.filterMap_congr fun e he => by rw [hothers e (List.mem_append_right _ he)]
  rw [h.layers]
  exact forall2_filterMap lower _ upper (.map m) mine' before after (by rw [el]; exact hb) (by simp only [hr2]; rfl) ⟨hnn, hd'⟩ (by rw [eu]; exact ha)

/-- **C115.** A program serializes settings of which it gives only some (the others are `None`) and saves them through one of the TOML layers.
What it reads afterwards is, field by field, what it saved wherever it gave something and no later layer gives something else, and what the
layers before that one give wherever it gave nothing: saving `None` does not hide them. -/
theorem C115_save_settings (h : SavedToml limit b fm calls w w' lower upper name cd path v) (structs : Nat → List (String × Ty))
    (hs : ∀ n, Survives (.struct (structs n))) (hsc : ∀ n, Concrete (.struct (structs n))) (hso : ∀ n, OmitsNone (.struct (structs n)))
    (fs : List (String × Ty)) (hf : InParts fs) (hT : Survives (.struct fs)) (hTc : Concrete (.struct fs)) (hTo : OmitsNone (.struct fs))
    (mine : List (String × Data)) (hd : HasType structs (.struct fs) (.struct mine)) (hv : ser (.struct mine) = .ok v) :
    ∃ k0, ∀ k, k0 ≤ k → ∃ mine', DSame (.struct mine) (.struct mine') ∧
      ∀ before after : List (List (String × Data)),
        List.Forall₂ (fun (x : Value) s => (∀ p, ¬ NullEntry x p) ∧ deAt structs k (.struct fs) x = .ok (.struct s))
          (lower.filterMap fun e => (e.2.readValue w).toOption) before →
        List.Forall₂ (fun (x : Value) s => (∀ p, ¬ NullEntry x p) ∧ deAt structs k (.struct fs) x = .ok (.struct s))
          (upper.filterMap fun e => (e.2.readValue w).toOption) after →
        ∀ skip built, (register b fm calls).buildValue w' skip = .ok built →
          deAt structs k (.struct fs) built = .ok (.struct ((before ++ mine' :: after).foldl overlaidFields (nothingGiven fs))) := by
  obtain ⟨k0, hk⟩ := settings_saved h structs hs hsc hso fs hf hT hTc hTo mine hd hv
  refine ⟨k0, fun k hk' => ?_⟩
  obtain ⟨mine', h1, -, h2⟩ := hk k hk'
  exact ⟨mine', h1, h2⟩

/-- The same settings give the same at every field. -/
theorem given_same {xs ys : List (String × Data)} (h : DSame (.struct xs) (.struct ys)) (n : String) :
    (given xs n = none ∧ given ys n = none) ∨ ∃ d d', given xs n = some d ∧ given ys n = some d' ∧ DSame d d' := by
  have hf : ∀ p, (((xs.find? fun x => x.1 == n).map Prod.snd).bind fun x => dview x p) =
      ((ys.find? fun x => x.1 == n).map Prod.snd).bind fun x => dview x p := fun p => h (.field n :: p)
  unfold given
  cases hx : xs.find? fun x => x.1 == n with
  | none =>
    cases hy : ys.find? fun x => x.1 == n with
    | none => exact Or.inl ⟨rfl, rfl⟩
    | some y => have := hf []; rw [hx, hy] at this; cases this
  | some x =>
    cases hy : ys.find? fun x => x.1 == n with
    | none => have := hf []; rw [hx, hy] at this; cases this
    | some y =>
      obtain ⟨xn, xd⟩ := x
      obtain ⟨yn, yd⟩ := y
      rw [hx, hy] at hf
      have hs : DSame xd yd := hf
      have h0 : dhead xd = dhead yd := Option.some.inj (hs [])
      by_cases hsome : ∃ a, xd = .some a
      · obtain ⟨a, rfl⟩ := hsome
        cases yd <;> simp only [dhead, reduceCtorEq] at h0
        exact Or.inr ⟨a, _, rfl, rfl, fun p => hs (.inner :: p)⟩
      · refine Or.inl ⟨?_, ?_⟩
        · cases xd <;> first | rfl | exact absurd ⟨_, rfl⟩ hsome
        · cases yd <;> first | rfl | skip
          cases xd <;> simp only [dhead, reduceCtorEq] at h0
          exact absurd ⟨_, rfl⟩ hsome

theorem gives_same (p : List String) : ∀ {xs ys : List (String × Data)}, DSame (.struct xs) (.struct ys) →
    (gives xs p = none ∧ gives ys p = none) ∨ ∃ d d', gives xs p = some d ∧ gives ys p = some d' ∧ DSame d d' := by
  induction p with
  | nil => intro xs ys _; exact Or.inl ⟨rfl, rfl⟩
  | cons n p ih =>
    intro xs ys h
    cases p with
    | nil => exact given_same h n
    | cons m p =>
      simp only [gives]
      rcases given_same h n with ⟨h1, h2⟩ | ⟨d, d', h1, h2, h3⟩
      · rw [h1, h2]; exact Or.inl ⟨rfl, rfl⟩
      · rw [h1, h2]
        have h0 : dhead d = dhead d' := Option.some.inj (h3 [])
        by_cases hst : ∃ as, d = .struct as
        · obtain ⟨as, rfl⟩ := hst
          cases d' <;> simp only [dhead, reduceCtorEq] at h0
          exact ih h3
        · by_cases hmp : ∃ es, d = .map es
          · obtain ⟨es, rfl⟩ := hmp
            cases d' <;> simp only [dhead, reduceCtorEq] at h0
            rename_i es'
            cases p with
            | cons q p => exact Or.inl ⟨rfl, rfl⟩
            | nil =>
              have he : ∀ r, ((dchild (.map es) (.key (.str m))).bind fun x => dview x r) = (dchild (.map es') (.key (.str m))).bind fun x => dview x r :=
                fun r => h3 (.key (.str m) :: r)
              simp only []
              cases hx : dchild (.map es) (.key (.str m)) with
              | none =>
                cases hy : dchild (.map es') (.key (.str m)) with
                | none => exact Or.inl ⟨rfl, rfl⟩
                | some y => have := he []; rw [hx, hy] at this; cases this
              | some x =>
                cases hy : dchild (.map es') (.key (.str m)) with
                | none => have := he []; rw [hx, hy] at this; cases this
                | some y => rw [hx, hy] at he; exact Or.inr ⟨x, y, rfl, rfl, he⟩
          · refine Or.inl ⟨?_, ?_⟩
            · cases d <;> first | rfl | exact absurd ⟨_, rfl⟩ hst | exact absurd ⟨_, rfl⟩ hmp
            · cases d' <;> first | rfl | skip
              · cases d <;> simp only [dhead, reduceCtorEq] at h0
                exact absurd ⟨_, rfl⟩ hmp
              · cases d <;> simp only [dhead, reduceCtorEq] at h0
                exact absurd ⟨_, rfl⟩ hst

theorem fits_all {structs : Nat → List (String × Ty)} {k : Nat} {fs : List (String × Ty)} (hf : InParts fs) {ls : List (String × Layer)}
    (hp : ∀ e ∈ ls, Proper e.2) (w : World) {ss : List (List (String × Data))}
    (hs : List.Forall₂ (fun (x : Value) s => (∀ p, ¬ NullEntry x p) ∧ deAt structs k (.struct fs) x = .ok (.struct s))
      (ls.filterMap fun e => (e.2.readValue w).toOption) ss) : ∀ s ∈ ss, FitsParts fs s := by
  intro s hs'
  obtain ⟨i, hi, rfl⟩ := List.mem_iff_getElem.1 hs'
  have hl := hs.length_eq
  have hx := (List.forall₂_iff_get.1 hs).2 i (by omega) hi
  simp only [List.get_eq_getElem] at hx
  obtain ⟨e, he, hr⟩ := List.mem_filterMap.1 (List.getElem_mem (l := ls.filterMap fun e => (e.2.readValue w).toOption) (n := i) (by omega))
  refine fits_of_de hf ?_ hx.2
  cases hr' : e.2.readValue w with
  | error y => rw [hr'] at hr; cases hr
  | ok y => rw [hr'] at hr; exact Option.some.inj hr ▸ hp e he w y hr'

/-- **C115.** Piece by piece: afterwards a field reads as the last later layer gives it that gives it at all; else as it was saved, if it was
given; else as the last of the layers before gives it. -/
theorem C115_piece (h : SavedToml limit b fm calls w w' lower upper name cd path v) (structs : Nat → List (String × Ty))
    (hs : ∀ n, Survives (.struct (structs n))) (hsc : ∀ n, Concrete (.struct (structs n))) (hso : ∀ n, OmitsNone (.struct (structs n)))
    (fs : List (String × Ty)) (hf : InParts fs) (hT : Survives (.struct fs)) (hTc : Concrete (.struct fs)) (hTo : OmitsNone (.struct fs))
    (mine : List (String × Data)) (hd : HasType structs (.struct fs) (.struct mine)) (hv : ser (.struct mine) = .ok v) :
    ∃ k0, ∀ k, k0 ≤ k → ∀ before after : List (List (String × Data)),
        List.Forall₂ (fun (x : Value) s => (∀ p, ¬ NullEntry x p) ∧ deAt structs k (.struct fs) x = .ok (.struct s))
          (lower.filterMap fun e => (e.2.readValue w).toOption) before →
        List.Forall₂ (fun (x : Value) s => (∀ p, ¬ NullEntry x p) ∧ deAt structs k (.struct fs) x = .ok (.struct s))
          (upper.filterMap fun e => (e.2.readValue w).toOption) after →
        ∀ skip built, (register b fm calls).buildValue w' skip = .ok built →
          ∃ ds, deAt structs k (.struct fs) built = .ok (.struct ds) ∧ ∀ p, PieceAt fs p →
            (∀ d, (after.filterMap (gives · p)).getLast? = some d → gives ds p = some d) ∧
            ((∀ s ∈ after, gives s p = none) →
              (∀ d, gives mine p = some d → ∃ d', gives ds p = some d' ∧ DSame d d') ∧
              (gives mine p = none → gives ds p = (before.filterMap (gives · p)).getLast?)) := by
  obtain ⟨k0, hk⟩ := settings_saved h structs hs hsc hso fs hf hT hTc hTo mine hd hv
  refine ⟨k0, fun k hk' before after hb ha skip built hbuilt => ?_⟩
  obtain ⟨mine', hsame, hfm, hall⟩ := hk k hk'
  have hread := hall before after hb ha skip built hbuilt
  refine ⟨_, hread, fun p hp => ?_⟩
  have hprop : ∀ e ∈ lower ++ (name, .file (textHandler cd) path) :: upper, Proper e.2 := by rw [← h.layers]; exact h.proper
  have hfb : ∀ s ∈ before, FitsParts fs s := fits_all hf (fun e he => hprop e (by simp [he])) w hb
  have hfa : ∀ s ∈ after, FitsParts fs s := fits_all hf (fun e he => hprop e (by simp [he])) w ha
  rw [(gives_fold hf (before ++ mine' :: after) (by
    intro s hs
    rcases List.mem_append.1 hs with hs | hs
    · exact hfb s hs
    · rcases List.mem_cons.1 hs with rfl | hs
      · exact hfm
      · exact hfa s hs) _ (fits_nothing hf)).2 p hp, gives_nothing hf p hp, Option.or_none, List.filterMap_append, List.filterMap_cons]
  refine ⟨fun d hd => ?_, fun hno => ?_⟩
  · cases hg : gives mine' p with
    | none => simp only []; rw [List.getLast?_append, hd]; rfl
    | some x => simp only []; rw [List.getLast?_append, List.getLast?_cons, hd]; simp
  · have e : after.filterMap (gives · p) = [] := by rw [List.filterMap_eq_nil_iff]; exact hno
    rw [e]
    rcases gives_same p hsame with ⟨h1, h2⟩ | ⟨x, x', h1, h2, h3⟩
    · rw [h2]
      exact ⟨fun d hd => (by rw [h1] at hd; cases hd), fun _ => (by simp)⟩
    · rw [h2]
      refine ⟨fun d hd => ?_, fun hd => (by rw [h1] at hd; cases hd)⟩
      rw [h1] at hd; cases hd
      exact ⟨x', by simp, h3⟩

/-! ## A concrete case: defaults in full, the user's file, a port from outside -/

def exPSDefaults : Value := .map [("port", .integer ⟨80, by decide⟩), ("ui", .map [("dark", .boolean false), ("lang", .string "en")])]
def exPSOver : Value := .map [("port", .string "8080")]
def exPSCalls : List RegCall := [.memory "default" exPSDefaults, .file "file" (os "/c.toml"), .memory "over" exPSOver]
/-- The user chose the dark colours and nothing else. -/
def exPSMine : List (String × Data) := [("port", .none), ("ui", .some (.struct [("dark", .some (.bool true)), ("lang", .none)]))]
def exPSValue : Value := .map [("port", .none), ("ui", .map [("dark", .boolean true), ("lang", .none)])]

theorem exPS_saved {w' : World} (hok : (Layer.file (textHandler exToml) (os "/c.toml")).writeValue exDisk exPSValue = (.ok (), w'))
    (hd : DepthBelow exPSValue 80) :
    SavedToml 80 exB1 ⟨exToml, exToml⟩ exPSCalls exDisk w' [("default", .memory exPSDefaults)] [("over", .memory exPSOver)] "file" exToml
      (os "/c.toml") exPSValue where
  like := exToml_like 80
  builtIn := by
    intro c hc
    simp only [exPSCalls, List.mem_cons, List.not_mem_nil, or_false] at hc
    rcases hc with rfl | rfl | rfl <;> trivial
  memory := by
    intro c hc n x hx
    simp only [exPSCalls, List.mem_cons, List.not_mem_nil, or_false] at hc
    rcases hc with rfl | rfl | rfl <;> cases hx <;> simp [exPSDefaults, exPSOver, UniqueKeys, UniqueKeysMap, UniqueKeysEntry, UniqueKeysList]
  layers := rfl
  places := by
    intro e he h q hq
    simp at he
    rcases he with rfl | rfl <;> cases hq
  unique := by simp [exPSValue, UniqueKeys, UniqueKeysMap, UniqueKeysEntry]
  depth := hd
  ok := hok
  readable := by intro bs code wr h; cases h
  before := by
    intro old ho p hn
    have : exTSFile.readValue exDisk = .ok (.map []) := rfl
    rw [show (Layer.file (textHandler exToml) (os "/c.toml")).readValue exDisk = _ from this] at ho; cases ho
    obtain ⟨⟨q, k, rfl⟩, hn⟩ := hn
    rcases q with _ | ⟨s, q⟩
    · cases hn
    · cases s <;> cases hn

theorem exPS_depth : DepthBelow exPSValue 80 := by
  have hmap : ∀ (m : Entries) k, (∀ e ∈ m, DepthBelow e.2 k) → DepthBelow (.map m) (k + 1) := by
    intro m k hm
    refine depth_node fun s x hx => ?_
    cases s with
    | idx i => cases hx
    | key j => rw [child_key_map] at hx; exact hm _ (hmGet_mem hx)
  have hb : ∀ t, DepthBelow (.boolean t) 1 := fun t => depth_leaf (by rintro (_ | _) <;> rfl)
  have hnone : DepthBelow .none 1 := depth_leaf (by rintro (_ | _) <;> rfl)
  refine depth_mono (hmap _ 2 fun e he => ?_) (by decide)
  simp only [List.mem_cons, List.not_mem_nil, or_false] at he
  rcases he with rfl | rfl
  · exact depth_mono hnone (by decide)
  · refine hmap _ 1 fun e he => ?_
    simp only [List.mem_cons, List.not_mem_nil, or_false] at he
    rcases he with rfl | rfl
    · exact hb _
    · exact hnone

theorem exPS_holds : TomlHolds exPSValue := by
  refine .map fun e he hne => ?_
  simp only [List.mem_cons, List.not_mem_nil, or_false] at he
  rcases he with rfl | rfl
  · exact absurd rfl hne
  · refine .map fun e he hne => ?_
    simp only [List.mem_cons, List.not_mem_nil, or_false] at he
    rcases he with rfl | rfl
    · exact .boolean _
    · exact absurd rfl hne

theorem exParts_survives : Survives (.struct exParts) := by
  refine .struct (by decide) fun f hf => ?_
  simp only [exParts, List.mem_cons, List.not_mem_nil, or_false] at hf
  rcases hf with rfl | rfl
  · exact .option (.int (by simp [Upto64])) rfl
  · refine .option (.struct (by decide) fun f hf => ?_) rfl
    simp only [List.mem_cons, List.not_mem_nil, or_false] at hf
    rcases hf with rfl | rfl
    · exact .option .bool rfl
    · exact .option .string rfl

theorem exParts_concrete : Concrete (.struct exParts) := by
  refine .struct fun f hf => ?_
  simp only [exParts, List.mem_cons, List.not_mem_nil, or_false] at hf
  rcases hf with rfl | rfl
  · exact .option (.int _)
  · refine .option (.struct fun f hf => ?_)
    simp only [List.mem_cons, List.not_mem_nil, or_false] at hf
    rcases hf with rfl | rfl
    · exact .option (.leaf (by simp))
    · exact .option (.leaf (by simp))

theorem exParts_omits : OmitsNone (.struct exParts) := by
  refine .struct (fun f hf => ?_) fun f hf => ?_ <;> simp only [exParts, List.mem_cons, List.not_mem_nil, or_false] at hf
  · rcases hf with rfl | rfl <;> exact Or.inr ⟨_, rfl⟩
  · rcases hf with rfl | rfl
    · exact .option (.int _)
    · refine .option (.struct (fun f hf => ?_) fun f hf => ?_) <;> simp only [List.mem_cons, List.not_mem_nil, or_false] at hf
      · rcases hf with rfl | rfl <;> exact Or.inr ⟨_, rfl⟩
      · rcases hf with rfl | rfl
        · exact .option (.leaf (by simp))
        · exact .option (.leaf (by simp))

theorem exPSMine_typed : HasType (fun _ => []) (.struct exParts) (.struct exPSMine) := by
  refine .struct rfl fun i f d hf hd => ?_
  rcases i with _ | _ | i
  · cases hf; cases hd; exact .none _
  · cases hf; cases hd
    refine .some (.struct rfl fun i f d hf hd => ?_)
    rcases i with _ | _ | i
    · cases hf; cases hd; exact .some (.bool _)
    · cases hf; cases hd; exact .none _
    · cases hf
  · cases hf

/-- After saving: the port is the one given last, the colours are the user's, the language the default. -/
example : ∃ w' k ds built, (Layer.file (textHandler exToml) (os "/c.toml")).writeValue exDisk exPSValue = (.ok (), w') ∧
    (register exB1 ⟨exToml, exToml⟩ exPSCalls).buildValue w' false = .ok built ∧
    deAt (fun _ => []) k (.struct exParts) built = .ok (.struct ds) ∧
    gives ds ["port"] = some (.int .u16 ⟨8080, by decide⟩) ∧ (∃ d, gives ds ["ui", "dark"] = some d ∧ DSame (.bool true) d) ∧
    gives ds ["ui", "lang"] = some (.str "en") := by
  obtain ⟨w', hok⟩ := (C84_write (exToml_like 80) exDisk (os "/c.toml") exPSValue).2 ⟨rfl, exPS_holds⟩ _ rfl rfl
  have hsv := exPS_saved hok exPS_depth
  have hno : ∀ n, Survives (.struct ((fun _ => [] : Nat → List (String × Ty)) n)) := fun _ => .struct List.nodup_nil (by simp)
  obtain ⟨k0, hk⟩ := C115_piece hsv (fun _ => []) hno (fun _ => .struct (by simp)) (fun _ => .struct (by simp) (by simp)) exParts exParts_inParts
    exParts_survives exParts_concrete exParts_omits exPSMine exPSMine_typed rfl
  obtain ⟨built, hb, -⟩ := hsv.save (skip := false) (built := (register exB1 ⟨exToml, exToml⟩ exPSCalls).buildValue exDisk false |>.toOption.getD .none) rfl
  have cb : ∀ b s, child (.boolean b) s = none := fun b s => by cases s <;> rfl
  have cs : ∀ t s, child (.string t) s = none := fun b s => by cases s <;> rfl
  have ci : ∀ t s, child (.integer t) s = none := fun b s => by cases s <;> rfl
  obtain ⟨ds, hds, hp⟩ := hk (k0 + 1) (by omega)
    [[("port", .some (.int .u16 ⟨80, by decide⟩)), ("ui", .some (.struct [("dark", .some (.bool false)), ("lang", .some (.str "en"))]))]]
    [[("port", .some (.int .u16 ⟨8080, by decide⟩)), ("ui", .none)]]
    (.cons ⟨noNull_of_leaves (by
      intro e he
      simp only [List.mem_cons, List.not_mem_nil, or_false] at he
      rcases he with rfl | rfl
      · exact noNull_scalar (ci _) (by simp)
      · refine ⟨by simp, noNull_of_leaves fun e he => ?_⟩
        simp only [List.mem_cons, List.not_mem_nil, or_false] at he
        rcases he with rfl | rfl
        · exact noNull_scalar (cb _) (by simp)
        · exact noNull_scalar (cs _) (by simp)), by rfl⟩ .nil)
    (.cons ⟨noNull_of_leaves (by
      intro e he
      simp only [List.mem_cons, List.not_mem_nil, or_false] at he
      subst he
      exact noNull_scalar (cs _) (by simp)), by rfl⟩ .nil) false built hb
  refine ⟨w', k0 + 1, ds, built, hok, hb, hds, ?_, ?_, ?_⟩
  · exact (hp ["port"] (.here (t := .int .u16) (by simp [exParts]) (.int _))).1 _ rfl
  · exact ((hp ["ui", "dark"] (.inside (gs := [("dark", .option .bool), ("lang", .option .string)]) (by simp [exParts])
      (.here (t := .bool) (by simp) .bool))).2 (by intro s hs; simp only [List.mem_singleton] at hs; subst hs; rfl)).1 _ rfl
  · exact ((hp ["ui", "lang"] (.inside (gs := [("dark", .option .bool), ("lang", .option .string)]) (by simp [exParts])
      (.here (t := .string) (by simp) .string))).2 (by intro s hs; simp only [List.mem_singleton] at hs; subst hs; rfl)).2 rfl

end Verif.Props
