import Verif.Props.Doc
import Verif.Spec.DocAlike
/-! # Settings with `Value` inside, through a text format (C66) -/
namespace Verif.Props
open Spec

/-! ## The canonical representative of data -/

/-- An integer in its canonical kind. -/
def dnInt (t : IntTy) (n : IntOf t) : Data :=
  if h : IntTy.lo .i128 ≤ n.1 ∧ n.1 ≤ IntTy.hi .i128 then .int .i128 ⟨n.1, h⟩ else .int t n

theorem dnInt_congr {t t' : IntTy} {n : IntOf t} {n' : IntOf t'} (h : n.1 = n'.1) : dnInt t n = dnInt t' n' := by
  obtain ⟨a, ha⟩ := n
  obtain ⟨b, hb⟩ := n'
  simp only at h
  subst h
  unfold dnInt
  split
  · rfl
  · rename_i hn
    have e : ∀ u : IntTy, IntTy.lo u ≤ a → a ≤ IntTy.hi u → u = .u128 := by
      intro u h1 h2
      cases u <;> first | rfl | (exfalso; apply hn; simp only [IntTy.lo, IntTy.hi] at h1 h2 ⊢; constructor <;> omega)
    obtain rfl := e t ha.1 ha.2
    obtain rfl := e t' hb.1 hb.2
    rfl

mutual
/-- Every integer in its canonical kind. -/
def dn (d : Data) : Data :=
  match d with
  | .int t n => dnInt t n
  | .some d => .some (dn d)
  | .newtypeStruct d => .newtypeStruct (dn d)
  | .newtypeVariant v d => .newtypeVariant v (dn d)
  | .seq ds => .seq (dnList ds)
  | .tuple ds => .tuple (dnList ds)
  | .tupleStruct ds => .tupleStruct (dnList ds)
  | .tupleVariant v ds => .tupleVariant v (dnList ds)
  | .map es => .map (dnEntries es)
  | .struct fs => .struct (dnFields fs)
  | .structVariant v fs => .structVariant v (dnFields fs)
  | .bool b => .bool b
  | .f32 x => .f32 x
  | .f64 x => .f64 x
  | .char c => .char c
  | .str s => .str s
  | .bytes bs => .bytes bs
  | .none => .none
  | .unit => .unit
  | .unitStruct => .unitStruct
  | .unitVariant v => .unitVariant v
  termination_by structural d
def dnList (ds : List Data) : List Data :=
  match ds with
  | [] => []
  | d :: r => dn d :: dnList r
  termination_by structural ds
def dnEntries (es : List (Data × Data)) : List (Data × Data) :=
  match es with
  | [] => []
  | e :: r => dnEntry e :: dnEntries r
  termination_by structural es
def dnEntry (e : Data × Data) : Data × Data :=
  match e with
  | (k, d) => (k, dn d)
  termination_by structural e
def dnFields (fs : List (String × Data)) : List (String × Data) :=
  match fs with
  | [] => []
  | f :: r => dnField f :: dnFields r
  termination_by structural fs
def dnField (f : String × Data) : String × Data :=
  match f with
  | (k, d) => (k, dn d)
  termination_by structural f
end

theorem dnList_eq (ds : List Data) : dnList ds = ds.map dn := by
  induction ds with
  | nil => rw [dnList]; rfl
  | cons x r ih => rw [dnList, ih]; rfl

theorem dnEntries_eq (es : List (Data × Data)) : dnEntries es = es.map (fun e => (e.1, dn e.2)) := by
  induction es with
  | nil => rw [dnEntries]; rfl
  | cons e r ih => obtain ⟨k, v⟩ := e; rw [dnEntries, dnEntry, ih]; rfl

theorem dnFields_eq (fs : List (String × Data)) : dnFields fs = fs.map (fun e => (e.1, dn e.2)) := by
  induction fs with
  | nil => rw [dnFields]; rfl
  | cons e r ih => obtain ⟨k, v⟩ := e; rw [dnFields, dnField, ih]; rfl

theorem dnInt_head (t : IntTy) (n : IntOf t) : (∃ u m, dnInt t n = .int u m ∧ m.1 = n.1) := by
  unfold dnInt
  split <;> exact ⟨_, _, rfl, rfl⟩

/-- What the canonical representative shows. -/
def dnHead : DHead → DHead
  | .int t n => dhead (dnInt t n)
  | h => h

theorem dhead_dn (d : Data) : dhead (dn d) = dnHead (dhead d) := by
  cases d <;> rw [dn] <;> simp [dhead, dnHead, dnList_eq, dnFields_eq, Function.comp_def]

theorem dchild_dn (d : Data) (s : DStep) : dchild (dn d) s = (dchild d s).map dn := by
  have int : ∀ t n, dchild (dnInt t n) s = none := by
    intro t n
    obtain ⟨u, m, h, -⟩ := dnInt_head t n
    rw [h]; cases s <;> rfl
  cases d with
  | int t n => rw [dn, int]; cases s <;> rfl
  | _ =>
    rw [dn]
    cases s <;> simp [dchild, dnList_eq, dnEntries_eq, dnFields_eq, List.find?_map, Function.comp_def]

theorem dview_dn (p : List DStep) : ∀ d, dview (dn d) p = (dview d p).map dnHead := by
  induction p with
  | nil => intro d; simp [dview, dhead_dn]
  | cons s p ih =>
    intro d
    rw [dview, dview, dchild_dn]
    cases dchild d s with
    | none => rfl
    | some x => simp only [Option.map_some, Option.bind_some]; exact ih x

theorem dnHead_num (h : DHead) : dnumberOf (dnHead h) = dnumberOf h ∧ (dnumberOf h = none → dnHead h = h) := by
  cases h with
  | int t n =>
    obtain ⟨u, m, h, e⟩ := dnInt_head t n
    simp [dnHead, h, dhead, dnumberOf, e]
  | _ => exact ⟨rfl, fun _ => rfl⟩

theorem dnHead_alike {h h' : DHead} (e : dnHead h = dnHead h') : DHeadAlike h h' := by
  obtain ⟨h1, h2⟩ := dnHead_num h
  obtain ⟨h3, h4⟩ := dnHead_num h'
  rw [e, h3] at h1
  cases hn : dnumberOf h with
  | some n => exact Or.inr ⟨n, hn, h1.trans hn⟩
  | none => exact Or.inl ((h2 hn).symm.trans (e.trans (h4 (h1.trans hn))))

/-- Canonical representatives that are indistinguishable come from data alike. -/
theorem dalike_of_dn {a b : Data} (h : DSame (dn a) (dn b)) : DAlike a b := by
  intro p
  have := h p
  rw [dview_dn, dview_dn] at this
  cases h1 : dview a p with
  | none =>
    cases h2 : dview b p with
    | none => exact Or.inl ⟨rfl, rfl⟩
    | some y => rw [h1, h2] at this; cases this
  | some x =>
    cases h2 : dview b p with
    | none => rw [h1, h2] at this; cases this
    | some y =>
      rw [h1, h2] at this
      exact Or.inr ⟨x, y, rfl, rfl, dnHead_alike (Option.some.inj this)⟩

theorem dsame_dn {a b : Data} (h : DSame a b) : DSame (dn a) (dn b) := by
  intro p; rw [dview_dn, dview_dn, h p]

theorem dn_toData (v : Value) : dn v.toData = dn (norm v).toData := by
  have int : ∀ (w : Value) (n : Int) src, integerOf w = some (n, src) →
      ∃ t m, w.toData = .int t m ∧ m.1 = n := by
    intro w n src h
    cases w <;> simp only [integerOf, Option.some.injEq, Prod.mk.injEq, reduceCtorEq] at h
    all_goals (obtain ⟨rfl, -⟩ := h; exact ⟨_, _, by rw [Value.toData], rfl⟩)
  have intv : ∀ (w : Value) (n : Int) src, integerOf w = some (n, src) → dn w.toData = dn (norm w).toData := by
    intro w n src h
    obtain ⟨t, m, e1, e2⟩ := int _ _ _ h
    obtain ⟨src', h'⟩ := normInt_spec h
    obtain ⟨t', m', e3, e4⟩ := int _ _ _ h'
    rw [norm_int h, e1, e3, dn, dn]
    exact dnInt_congr (e2.trans e4.symm)
  induction v using Value.ind with
  | array xs ih =>
    rw [norm, Value.toData, Value.toData, dn, dn, normList_eq, toDataList_eq, toDataList_eq, dnList_eq, dnList_eq, List.map_map,
      List.map_map, List.map_map]
    congr 1
    exact List.map_congr_left fun x hx => ih x hx
  | map m ih =>
    rw [norm, Value.toData, Value.toData, dn, dn, normMap_eq, toDataEntries_eq, toDataEntries_eq, dnEntries_eq, dnEntries_eq,
      List.map_map, List.map_map, List.map_map]
    congr 1
    refine List.map_congr_left fun e he => ?_
    simp only [Function.comp_apply]
    rw [ih e he]
  | integer n => exact intv _ _ _ rfl
  | longInteger n => exact intv _ _ _ rfl
  | uInteger n => exact intv _ _ _ rfl
  | uLongInteger n => exact intv _ _ _ rfl
  | _ => rw [norm]

/-! ## Decoding the canonical representative -/

/-- Both computations succeed with what `f` makes the same of, or neither does. -/
def DnRelOk {α γ : Type} (f : α → γ) (x y : Outcome ModelError α) : Prop :=
  ∀ c, (∃ a, x = .ok a ∧ f a = c) ↔ ∃ b, y = .ok b ∧ f b = c

theorem DnRelOk.of_eq {α γ : Type} {f : α → γ} {x y : Outcome ModelError α} (h : ∀ a, x = .ok a ↔ y = .ok a) : DnRelOk f x y :=
  fun _ => exists_congr fun a => and_congr_left fun _ => h a

theorem DnRelOk.bind {α β γ δ : Type} {f : α → γ} {g : β → δ} {x y : Outcome ModelError α} (h : DnRelOk f x y)
    {F G : α → Outcome ModelError β} (hf : ∀ a b, f a = f b → DnRelOk g (F a) (G b)) : DnRelOk g (x >>= F) (y >>= G) := by
  intro c
  constructor
  · rintro ⟨b, h1, h2⟩
    obtain ⟨a, h3, h4⟩ := bind_eq_ok.1 h1
    obtain ⟨a', h5, h6⟩ := (h (f a)).1 ⟨a, h3, rfl⟩
    obtain ⟨b', h7, h8⟩ := (hf a a' h6.symm c).1 ⟨b, h4, h2⟩
    exact ⟨b', bind_eq_ok.2 ⟨a', h5, h7⟩, h8⟩
  · rintro ⟨b, h1, h2⟩
    obtain ⟨a, h3, h4⟩ := bind_eq_ok.1 h1
    obtain ⟨a', h5, h6⟩ := (h (f a)).2 ⟨a, h3, rfl⟩
    obtain ⟨b', h7, h8⟩ := (hf a' a h6 c).2 ⟨b, h4, h2⟩
    exact ⟨b', bind_eq_ok.2 ⟨a', h5, h7⟩, h8⟩

theorem DnRelOk.ok {α γ : Type} {f : α → γ} {a b : α} (h : f a = f b) : DnRelOk f (.ok a) (.ok b) := by
  intro c
  constructor
  · rintro ⟨x, e, rfl⟩; cases e; exact ⟨_, rfl, h.symm⟩
  · rintro ⟨x, e, rfl⟩; cases e; exact ⟨_, rfl, h⟩

theorem DnRelOk.err {α γ : Type} {f : α → γ} {x y : Outcome ModelError α} (hx : ∃ e, x = .err e) (hy : ∃ e, y = .err e) : DnRelOk f x y := by
  obtain ⟨e, rfl⟩ := hx
  obtain ⟨e', rfl⟩ := hy
  intro c
  constructor <;> (rintro ⟨_, h, -⟩; cases h)

/-- The decoder gives data with the same representative for the canonical representative. -/
def DnNormRel (dec : Decoder) : Prop := ∀ v, UniqueKeys v → DnRelOk dn (dec v) (dec (norm v))

theorem dn_vecLoop_rel {dec : Decoder} (h : DnNormRel dec) (xs : List Value) : (∀ x ∈ xs, UniqueKeys x) → ∀ acc acc', acc.map dn = acc'.map dn →
    DnRelOk (List.map dn) (deVecLoop dec acc xs) (deVecLoop dec acc' (xs.map norm)) := by
  induction xs with
  | nil => intro _ acc acc' e; exact .ok e
  | cons x r ih =>
    intro hu acc acc' e
    simp only [deVecLoop, List.map_cons]
    exact (h x (hu x (by simp))).bind fun a b hab => ih (fun y hy => hu y (by simp [hy])) _ _ (by simp [e, hab])

theorem dn_tupleLoop_rel : ∀ (decs : List Decoder), (∀ dec ∈ decs, DnNormRel dec) → ∀ (xs : List Value), (∀ x ∈ xs, UniqueKeys x) →
    ∀ (i : Nat) acc acc', acc.map dn = acc'.map dn →
    DnRelOk (List.map dn) (deTupleLoop i acc decs xs) (deTupleLoop i acc' decs (xs.map norm)) := by
  intro decs
  induction decs with
  | nil => intro _ xs _ i acc acc' e; cases xs <;> exact .ok e
  | cons dec decs ih =>
    intro h xs hu i acc acc' e
    cases xs with
    | nil => exact .err ⟨_, rfl⟩ ⟨_, rfl⟩
    | cons x r =>
      simp only [deTupleLoop, List.map_cons]
      exact (h dec (by simp) x (hu x (by simp))).bind fun a b hab =>
        ih (fun d hd => h d (by simp [hd])) r (fun y hy => hu y (by simp [hy])) _ _ _ (by simp [e, hab])

/-- The second components in their canonical representatives. -/
def dnSnd {α : Type} (e : α × Data) : α × Data := (e.1, dn e.2)

theorem dn_keyInsert_rel (k : Key) {d d' : Data} (hd : dn d = dn d') : ∀ (as bs : List (Key × Data)), as.map dnSnd = bs.map dnSnd →
    (keyInsert as k d).map dnSnd = (keyInsert bs k d').map dnSnd := by
  intro as
  induction as with
  | nil =>
    intro bs h
    cases bs with
    | nil => simp [keyInsert, dnSnd, hd]
    | cons b bs => cases h
  | cons a as ih =>
    intro bs h
    cases bs with
    | nil => cases h
    | cons b bs =>
      obtain ⟨k1, d1⟩ := a
      obtain ⟨k2, d2⟩ := b
      simp only [List.map_cons, List.cons.injEq, dnSnd, Prod.mk.injEq] at h
      obtain ⟨⟨rfl, h1⟩, h2⟩ := h
      simp only [keyInsert]
      split
      · simp [dnSnd, hd]; exact h2
      · simp only [List.map_cons, dnSnd, h1]; exact congrArg _ (ih bs h2)

theorem dn_hmInsert_rel (k : String) {d d' : Data} (hd : dn d = dn d') : ∀ (as bs : List (String × Data)), as.map dnSnd = bs.map dnSnd →
    (hmInsert as k d).map dnSnd = (hmInsert bs k d').map dnSnd := by
  intro as
  induction as with
  | nil =>
    intro bs h
    cases bs with
    | nil => simp [hmInsert, dnSnd, hd]
    | cons b bs => cases h
  | cons a as ih =>
    intro bs h
    cases bs with
    | nil => cases h
    | cons b bs =>
      obtain ⟨k1, d1⟩ := a
      obtain ⟨k2, d2⟩ := b
      simp only [List.map_cons, List.cons.injEq, dnSnd, Prod.mk.injEq] at h
      obtain ⟨⟨rfl, h1⟩, h2⟩ := h
      simp only [hmInsert]
      split
      · simp [dnSnd, hd]; exact h2
      · simp only [List.map_cons, dnSnd, h1]; exact congrArg _ (ih bs h2)

theorem hmGet_dnSnd (k : String) (as : List (String × Data)) : hmGet (as.map dnSnd) k = (hmGet as k).map dn := by
  induction as with
  | nil => rfl
  | cons e r ih =>
    obtain ⟨k', v⟩ := e
    simp only [List.map_cons, hmGet, dnSnd]
    split
    · rfl
    · exact ih

theorem dn_hmGet_rel (k : String) {as bs : List (String × Data)} (h : as.map dnSnd = bs.map dnSnd) :
    (hmGet as k).map dn = (hmGet bs k).map dn := by
  rw [← hmGet_dnSnd, h, hmGet_dnSnd]

theorem dn_mapLoop_rel {dec : Decoder} (h : DnNormRel dec) (kt : KeyTy) (m : Entries) : (∀ e ∈ m, UniqueKeys e.2) → ∀ acc acc',
    acc.map dnSnd = acc'.map dnSnd →
    DnRelOk (List.map dnSnd) (deMapLoop kt dec acc m) (deMapLoop kt dec acc' (m.map (fun e => (e.1, norm e.2)))) := by
  induction m with
  | nil => intro _ acc acc' e; exact .ok e
  | cons e r ih =>
    intro hu acc acc' e'
    obtain ⟨k, v⟩ := e
    simp only [deMapLoop, List.map_cons]
    refine DnRelOk.bind (f := id) (.of_eq fun _ => Iff.rfl) fun a b hab => ?_
    obtain rfl : a = b := hab
    exact (h v (hu (k, v) (by simp))).bind fun x y hxy => ih (fun e he => hu e (by simp [he])) _ _ (dn_keyInsert_rel a hxy _ _ e')

theorem dn_structLoop_rel {fds : List FieldDec} (h : ∀ fd ∈ fds, DnNormRel fd.dec) (m : Entries) : (∀ e ∈ m, UniqueKeys e.2) → ∀ acc acc',
    acc.map dnSnd = acc'.map dnSnd →
    DnRelOk (List.map dnSnd) (deStructLoop fds acc m) (deStructLoop fds acc' (m.map (fun e => (e.1, norm e.2)))) := by
  induction m with
  | nil => intro _ acc acc' e; exact .ok e
  | cons e r ih =>
    intro hu acc acc' e'
    obtain ⟨k, v⟩ := e
    have ih' := ih (fun e he => hu e (by simp [he]))
    simp only [deStructLoop, List.map_cons]
    refine DnRelOk.bind (f := id) (.of_eq fun _ => Iff.rfl) fun k k' hk => ?_
    obtain rfl : k = k' := hk
    cases hf : fds.find? (fun fd => fd.name == k) with
    | none => simp only [deIgnored_ok, Outcome.bind_ok]; exact ih' _ _ e'
    | some fd =>
      have hg := congrArg Option.isSome (dn_hmGet_rel k e')
      simp only [Option.isSome_map] at hg
      simp only [hg]
      split
      · exact .err ⟨_, rfl⟩ ⟨_, rfl⟩
      · exact (h fd (List.mem_of_find?_eq_some hf) v (hu (_, v) List.mem_cons_self)).bind fun x y hxy =>
          ih' _ _ (dn_hmInsert_rel k hxy _ _ e')

theorem dn_structFinish_rel (fds : List FieldDec) : ∀ acc acc', acc.map dnSnd = acc'.map dnSnd →
    DnRelOk (List.map dnSnd) (deStructFinish acc fds) (deStructFinish acc' fds) := by
  induction fds with
  | nil => intro acc acc' _; exact .ok rfl
  | cons fd r ih =>
    intro acc acc' e
    simp only [deStructFinish]
    refine DnRelOk.bind (f := dn) ?_ fun a b hab => (ih acc acc' e).bind fun as bs h => .ok (by simp [dnSnd, hab, h])
    have := dn_hmGet_rel fd.name e
    cases h1 : hmGet acc fd.name with
    | none =>
      rw [h1] at this
      have h2 : hmGet acc' fd.name = none := by simpa using this.symm
      rw [h2]; exact .of_eq fun _ => Iff.rfl
    | some x =>
      rw [h1] at this
      obtain ⟨y, h2, h3⟩ := Option.map_eq_some_iff.1 this.symm
      rw [h2]; exact .ok h3.symm

theorem dn_decoders_rel {refs : Nat → Decoder} {ts : List Ty} (h : ∀ t ∈ ts, DnNormRel (de refs t)) :
    ∀ dec ∈ decoders refs ts, DnNormRel dec := by
  induction ts with
  | nil => rw [decoders]; simp
  | cons t r ih =>
    rw [decoders]
    intro dec hd
    rcases List.mem_cons.1 hd with rfl | hd
    · exact h t (by simp)
    · exact ih (fun t ht => h t (by simp [ht])) dec hd

theorem dn_fieldDecoders_rel {refs : Nat → Decoder} {fs : List (String × Ty)} (h : ∀ f ∈ fs, DnNormRel (de refs (Prod.snd f))) :
    ∀ fd ∈ fieldDecoders refs fs, DnNormRel fd.dec := by
  induction fs with
  | nil => rw [fieldDecoders]; simp
  | cons f r ih =>
    obtain ⟨k, t⟩ := f
    rw [fieldDecoders, fieldDecoder]
    intro fd hd
    rcases List.mem_cons.1 hd with rfl | hd
    · exact h (k, t) (by simp)
    · exact ih (fun t ht => h t (by simp [ht])) fd hd

/-- What has no `Value` field decodes to the same data, so to data with the same representative. -/
theorem NormFree.rel {dec : Decoder} (h : NormFree dec) : DnNormRel dec := fun v _ => .of_eq (h v)

theorem dn_de_rel {refs : Nat → Decoder} (hr : ∀ n, DnNormRel (refs n)) {t : Ty} (ht : WellFormed t) : DnNormRel (de refs t) := by
  have leafs : ∀ {t : Ty}, (∀ refs, de refs t = de (fun _ _ => .panic) t) → Concrete t → DnNormRel (de refs t) := by
    intro t e hc
    rw [e]
    exact NormFree.rel (de_norm (fun _ _ _ => Iff.rfl) hc)
  have arr : ∀ (t : Ty) (f : List Value → Outcome ModelError Data) (v : Value), UniqueKeys v →
      (∀ xs, de refs t (.array xs) = f xs) → (∀ w : Value, (∀ xs, w ≠ .array xs) → ∃ e, de refs t w = .err e) →
      (∀ xs, (∀ x ∈ xs, UniqueKeys x) → DnRelOk dn (f xs) (f (xs.map norm))) → DnRelOk dn (de refs t v) (de refs t (norm v)) := by
    intro t f v hu h0 e hf
    rcases norm_array_or v with ⟨xs, rfl, h⟩ | ⟨h1, h2⟩
    · rw [h, h0, h0]; exact hf xs (uniqueKeys_array.1 hu)
    · exact .err (e v h1) (e _ h2)
  have mp : ∀ (t : Ty) (f : Entries → Outcome ModelError Data) (v : Value), UniqueKeys v →
      (∀ m, de refs t (.map m) = f m) → (∀ w : Value, (∀ m, w ≠ .map m) → ∃ e, de refs t w = .err e) →
      (∀ m, (∀ e ∈ m, UniqueKeys (Prod.snd e)) → DnRelOk dn (f m) (f (m.map (fun e => (e.1, norm e.2))))) →
      DnRelOk dn (de refs t v) (de refs t (norm v)) := by
    intro t f v hu h0 e hf
    rcases norm_map_or v with ⟨xs, rfl, h⟩ | ⟨h1, h2⟩
    · rw [h, h0, h0]; exact hf xs (uniqueKeys_map.1 hu).2
    · exact .err (e v h1) (e _ h2)
  induction ht with
  | value =>
    intro v hu
    rw [de, de, deValue_ok v hu, deValue_ok _ (uniqueKeys_norm v hu)]
    exact .ok (dn_toData v)
  | @option t _ ih =>
    intro v hu
    by_cases hv : v = .none
    · subst hv; rw [norm]; exact .of_eq fun _ => Iff.rfl
    · have hv' : norm v ≠ .none := fun h => hv (norm_eq_none.1 h)
      have e : ∀ w : Value, w ≠ .none → de refs (.option t) w = (de refs t w >>= fun d => .ok (.some d)) := by
        intro w hw; cases w <;> first | exact absurd rfl hw | simp [de]
      rw [e v hv, e _ hv']
      exact (ih v hu).bind fun a b h => .ok (by rw [dn, dn, h])
  | newtype _ ih => intro v hu; rw [de, de]; exact (ih v hu).bind fun a b h => .ok (by rw [dn, dn, h])
  | seq _ ih =>
    intro v hu
    exact arr _ _ v hu (fun xs => by rw [de]) (fun w hw => by cases w <;> first | exact absurd rfl (hw _) | simp [de])
      fun xs hx => (dn_vecLoop_rel ih xs hx [] [] rfl).bind fun a b h => .ok (by rw [dn, dn, dnList_eq, dnList_eq, h])
  | @tuple ts _ ih =>
    intro v hu
    exact arr _ _ v hu (fun xs => by rw [de]) (fun w hw => by cases w <;> first | exact absurd rfl (hw _) | simp [de])
      fun xs hx => (dn_tupleLoop_rel _ (dn_decoders_rel ih) xs hx 0 [] [] rfl).bind fun a b h => .ok (by rw [dn, dn, dnList_eq, dnList_eq, h])
  | @tupleStruct ts _ ih =>
    intro v hu
    exact arr _ _ v hu (fun xs => by rw [de]) (fun w hw => by cases w <;> first | exact absurd rfl (hw _) | simp [de])
      fun xs hx => (dn_tupleLoop_rel _ (dn_decoders_rel ih) xs hx 0 [] [] rfl).bind fun a b h => .ok (by rw [dn, dn, dnList_eq, dnList_eq, h])
  | map _ ih =>
    intro v hu
    refine mp _ _ v hu (fun xs => by first | (rw [de]; done) | (rw [de, deStruct])) (fun w hw => by cases w <;> first | exact absurd rfl (hw _) | simp [de, deStruct])
      fun m hm => (dn_mapLoop_rel ih _ m hm [] [] rfl).bind fun a b h => .ok ?_
    rw [dn, dn, dnEntries_eq, dnEntries_eq, List.map_map, List.map_map]
    have := congrArg (List.map fun e : Key × Data => (e.1.toData, e.2)) h
    rw [List.map_map, List.map_map] at this
    exact congrArg _ this
  | @struct fs _ _ ih =>
    intro v hu
    refine mp _ _ v hu (fun xs => by first | (rw [de]; done) | (rw [de, deStruct])) (fun w hw => by cases w <;> first | exact absurd rfl (hw _) | simp [de, deStruct])
      fun m hm => (dn_structLoop_rel (dn_fieldDecoders_rel ih) m hm [] [] rfl).bind fun a b h =>
        (dn_structFinish_rel _ a b h).bind fun x y hxy => .ok ?_
    rw [dn, dn, dnFields_eq, dnFields_eq]
    exact congrArg _ hxy
  | ref n => intro v hu; rw [de, de]; exact hr n v hu
  | int t => exact leafs (fun refs => by funext v; rfl) (.int _)
  | _ => exact leafs (fun refs => by funext v; cases v <;> rfl) (.leaf (by simp))

theorem dn_refsAt_rel {structs : Nat → List (String × Ty)} (hs : ∀ n, WellFormed (.struct (structs n))) :
    ∀ k n, DnNormRel (refsAt structs k n) := by
  intro k
  induction k with
  | zero => intro n v _; exact .of_eq fun _ => Iff.rfl
  | succ k ih => intro n; rw [refsAt]; exact dn_de_rel ih (hs n)

/-! ## C66 for every type -/

/-- **C66.** Values with the same paths showing the same there up to the kind of integers deserialize alike into **every**
type of the model, `Value` fields included: one succeeds iff the other does, and the results have the same paths, showing the
same there up to the kind of integers — which only a `Value` inside can show. -/
theorem C66_deserialize_values (structs : Nat → List (String × Ty)) (hs : ∀ n, WellFormed (.struct (structs n)))
    (T : Ty) (hT : WellFormed T) (k : Nat)
    (v v' : Value) (hu : UniqueKeys v) (hu' : UniqueKeys v') (h : Alike v v') (hc : ¬ KeyClash structs T v) :
    ((∃ d, deAt structs k T v = .ok d) ↔ ∃ d, deAt structs k T v' = .ok d) ∧
    ∀ d d', deAt structs k T v = .ok d → deAt structs k T v' = .ok d' → DAlike d d' := by
  have hf : DnNormRel (deAt structs k T) := dn_de_rel (dn_refsAt_rel hs k) hT
  have key := C44_order_independent structs hs T hT k (norm v) (norm v') (uniqueKeys_norm v hu) (uniqueKeys_norm v' hu')
    (alike_norm h) (fun hh => hc (clash_norm hh v rfl))
  have e : ∀ w, UniqueKeys w → ((∃ d, deAt structs k T w = .ok d) ↔ ∃ d, deAt structs k T (norm w) = .ok d) := by
    intro w hw
    constructor
    · rintro ⟨d, hd⟩
      obtain ⟨b, hb, -⟩ := (hf w hw (dn d)).1 ⟨d, hd, rfl⟩
      exact ⟨b, hb⟩
    · rintro ⟨d, hd⟩
      obtain ⟨b, hb, -⟩ := (hf w hw (dn d)).2 ⟨d, hd, rfl⟩
      exact ⟨b, hb⟩
  refine ⟨?_, fun d d' hd hd' => ?_⟩
  · rw [e v hu, e v' hu']; exact key.1
  · obtain ⟨b, hb, h1⟩ := (hf v hu (dn d)).1 ⟨d, hd, rfl⟩
    obtain ⟨b', hb', h2⟩ := (hf v' hu' (dn d')).1 ⟨d', hd', rfl⟩
    refine dalike_of_dn ?_
    rw [← h1, ← h2]
    exact dsame_dn (key.2 b b' hb hb')

/-- **C66.** Settings of any type, read from the values built in two worlds in which every layer reads alike — before and after
files were rewritten with what they held: reading succeeds in both or in neither, with the same settings up to the kind of integers
inside a `Value`. -/
theorem C66_settings (b : Build) (fm : Formats) (calls : List RegCall) (w w' : World) (skip : Bool)
    (hp : ∀ e ∈ firsts (offers b fm calls), Proper e.2) (hr : ∀ e ∈ firsts (offers b fm calls), ReadsAlike w w' e.2)
    (v v' : Value) (h : (register b fm calls).buildValue w skip = .ok v) (h' : (register b fm calls).buildValue w' skip = .ok v')
    (structs : Nat → List (String × Ty)) (hs : ∀ n, WellFormed (.struct (structs n))) (T : Ty) (hT : WellFormed T) (k : Nat)
    (hc : ¬ KeyClash structs T v) :
    ((∃ d, deAt structs k T v = .ok d) ↔ ∃ d, deAt structs k T v' = .ok d) ∧
    ∀ d d', deAt structs k T v = .ok d → deAt structs k T v' = .ok d' → DAlike d d' :=
  C66_deserialize_values structs hs T hT k v v' ((C08_map b fm calls w skip v h).2 hp) ((C08_map b fm calls w' skip v' h').2 hp)
    ((C66_build b fm calls w w' skip hp hr).2 v v' h h') hc

/-! ### A concrete case -/

/-- The example of C66, read into settings with a `Value` inside: the kind may have changed, the number has not. -/
example : ∃ v', visit exPresented = .ok v' ∧
    ∀ d, deAt (fun _ => []) 1 (.struct [("a", .char), ("b", .value)]) v' = .ok d →
      DAlike (.struct [("a", .char 'x'), ("b", .seq [.int .u64 ⟨7, by decide⟩, .none])]) d := by
  obtain ⟨v', h1, h2, h3⟩ := C66_reads exOriginal exOriginal_unique exPresented exPresents
  refine ⟨v', h1, fun d hd => ?_⟩
  have hemp : ∀ _ : Nat, WellFormed (.struct []) := fun _ => .struct (by simp) (by simp)
  refine (C66_deserialize_values (fun _ => []) hemp (.struct [("a", .char), ("b", .value)]) ?_ 1 exOriginal v'
    exOriginal_unique h3 h2 ?_).2 _ _ (by rfl) hd
  · refine .struct (by decide) ?_
    intro f hf
    simp only [List.mem_cons, List.not_mem_nil, or_false] at hf
    rcases hf with rfl | rfl
    exacts [.char, .value]
  · intro hk
    cases hk with
    | struct hm _ hx =>
      simp only [List.mem_cons, Prod.mk.injEq, List.not_mem_nil, or_false] at hm
      rcases hm with ⟨-, rfl⟩ | ⟨-, rfl⟩ <;> cases hx

/-- The kind does change: the `Value` read is a signed integer where an unsigned one was written. -/
example : ¬ DSame (Data.int .u64 ⟨7, by decide⟩) (.int .i64 ⟨7, by decide⟩) ∧
    DAlike (Data.int .u64 ⟨7, by decide⟩) (.int .i64 ⟨7, by decide⟩) := by
  refine ⟨fun h => by have := h []; simp [dview, dhead] at this, dalike_of_dn ?_⟩
  rw [dn, dn, dnInt_congr (t' := .i64) (n' := ⟨7, by decide⟩) rfl]
  exact DSame.refl _

/-- Not everything is alike: another number, or a text instead. -/
example : ¬ DAlike (Data.int .u64 ⟨7, by decide⟩) (.int .u64 ⟨8, by decide⟩) ∧ ¬ DAlike (Data.int .u64 ⟨7, by decide⟩) (.str "7") := by
  constructor
  · intro h
    rcases h [] with ⟨h1, -⟩ | ⟨x, y, h1, h2, h3⟩
    · cases h1
    · cases h1; cases h2
      rcases h3 with h3 | ⟨n, h3, h4⟩
      · cases h3
      · cases h3; cases h4
  · intro h
    rcases h [] with ⟨h1, -⟩ | ⟨x, y, h1, h2, h3⟩
    · cases h1
    · cases h1; cases h2
      rcases h3 with h3 | ⟨n, h3, h4⟩
      · cases h3
      · cases h4

end Verif.Props
