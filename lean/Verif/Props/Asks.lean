import Verif.Spec.Asks
import Verif.Lemmas.Finder
import Verif.Lemmas.Macro
import Verif.Props.Config
import Verif.Props.Macro
/-!
# C136: what is asked of the operating system, and how often
-/
namespace Verif.Props
open Spec FileFinder

/-! ## The searches -/

@[simp] theorem asking_bind_pure {α β : Type} (a : α) (f : α → Asking β) : (Asking.pure a).bind f = f a := by
  simp [Asking.pure, Asking.bind]

@[simp] theorem asking_bind_quiet_ok {α β : Type} (a : α) (f : α → Asking β) : (Asking.quiet (.ok a)).bind f = f a := by
  simp [Asking.quiet, Asking.bind]

theorem asking_bind_out {α β : Type} (x : Asking α) (f : α → Asking β) : (x.bind f).out = (x.out >>= fun a => (f a).out) := by
  unfold Asking.bind
  cases x.out <;> rfl

/-- A body over a flat list. -/
def foldAsk {ρ σ : Type} (body : σ → OsStr → String → Asking (Flow ρ σ)) (st : σ) : List (OsStr × String) → Asking (Flow ρ σ)
  | [] => .pure (.cont st)
  | c :: cs => (body st c.1 c.2).bind fun
      | .ret r => .pure (.ret r)
      | .cont st => foldAsk body st cs

theorem foldAsk_append {ρ σ : Type} (body : σ → OsStr → String → Asking (Flow ρ σ)) (cs ds : List (OsStr × String)) :
    ∀ st, foldAsk body st (cs ++ ds) = ((foldAsk body st cs).bind fun
      | .ret r => .pure (.ret r)
      | .cont st => foldAsk body st ds) := by
  induction cs with
  | nil => intro st; simp [foldAsk]
  | cons c cs ih =>
    intro st
    simp only [List.cons_append, foldAsk]
    unfold Asking.bind
    cases (body st c.1 c.2).out with
    | ok x => cases x with
      | ret r => simp [Asking.pure]
      | cont s =>
        simp only [ih s]
        unfold Asking.bind
        cases (foldAsk body s cs).out with
        | ok y => simp
        | err e => rfl
        | panic => rfl
    | err e => rfl
    | panic => rfl

theorem eachExtA_eq {ρ σ : Type} (body : σ → OsStr → String → Asking (Flow ρ σ)) (base : OsStr) (exts : List String)
    (h : ∀ e ∈ exts, '/' ∉ e.toList) : ∀ st, eachExtA body base st exts = foldAsk body st (row base exts) := by
  induction exts with
  | nil => intro st; rfl
  | cons e exts ih =>
    intro st
    rw [eachExtA, withExt_ok (h e (by simp))]
    simp only [asking_bind_quiet_ok, row, List.map_cons, foldAsk]
    congr 1; funext x
    cases x with
    | ret r => rfl
    | cont s => exact ih (fun e' he => h e' (by simp [he])) s

theorem eachFolderA_eq {ρ σ : Type} (body : σ → OsStr → String → Asking (Flow ρ σ)) (name : String) (exts : List String)
    (h : ∀ e ∈ exts, '/' ∉ e.toList) (folders : List OsStr) :
    ∀ st, eachFolderA body name exts st folders = foldAsk body st (folders.flatMap fun d => row (pathJoin d (os name)) exts) := by
  induction folders with
  | nil => intro st; rfl
  | cons d folders ih =>
    intro st
    rw [eachFolderA, eachExtA_eq body _ exts h, List.flatMap_cons, foldAsk_append]
    congr 1; funext x
    cases x with
    | ret r => rfl
    | cont s => exact ih s

/-! ### The results are those of the plain model -/

theorem firstExts_out (b : Build) (w : World) (am : Bool) (base : OsStr) (exts : List String) : ∀ first,
    (eachExtA (firstBodyA b w am) base first exts).out = findFirstExts b w am base first exts := by
  induction exts with
  | nil => intro first; rfl
  | cons e exts ih =>
    intro first
    rw [eachExtA, findFirstExts, asking_bind_out]
    simp only [Asking.quiet]
    congr 1; funext file
    rw [asking_bind_out]
    simp only [firstBodyA, existsA, FindResult.newA, Asking.bind, Asking.pure]
    by_cases hc : w.pathExists file = true
    · simp [hc, FindResult.new]
    · by_cases hm : (am && first.isNone) = true
      · simp only [hc, hm, if_true, Bool.false_eq_true, if_false]
        simpa [FindResult.new, hc] using ih _
      · simp only [hc, hm, Bool.false_eq_true, if_false]
        simpa using ih _

theorem firstFolders_out (b : Build) (w : World) (am : Bool) (name : String) (exts : List String) (folders : List OsStr) : ∀ first,
    (eachFolderA (firstBodyA b w am) name exts first folders).out = findFirstFolders b w am name exts first folders := by
  induction folders with
  | nil => intro first; rfl
  | cons d folders ih =>
    intro first
    rw [eachFolderA, findFirstFolders, asking_bind_out, firstExts_out]
    congr 1; funext x
    cases x with
    | ret r => rfl
    | cont s => exact ih s

theorem findFirstA_out (b : Build) (w : World) (f : FileFinder) (am : Bool) : (findFirstA b w f am).out = findFirst b w f am := by
  unfold findFirstA findFirst
  rw [asking_bind_out]
  simp only [Asking.quiet]
  congr 1; funext _
  rw [asking_bind_out, firstFolders_out]
  congr 1; funext x
  cases x <;> rfl

theorem lastExts_out (b : Build) (w : World) (am : Bool) (base : OsStr) (exts : List String) : ∀ st,
    (eachExtA (lastBodyA b w am) base st exts).out = (findLastExts b w am base st exts >>= fun st => .ok (.cont st)) := by
  induction exts with
  | nil => intro st; rfl
  | cons e exts ih =>
    intro st
    rw [eachExtA, findLastExts, asking_bind_out]
    simp only [Asking.quiet]
    cases withExt base e with
    | err x => rfl
    | panic => rfl
    | ok file =>
      simp only [Outcome.bind_ok]
      rw [asking_bind_out]
      simp only [lastBodyA, existsA, FindResult.newA, Asking.bind, Asking.pure]
      by_cases hc : w.pathExists file = true
      · simp only [hc, if_true]
        simpa [FindResult.new, hc] using ih _
      · by_cases hm : (am && st.1.isNone) = true
        · simp only [hc, hm, if_true, Bool.false_eq_true, if_false]
          simpa [FindResult.new, hc] using ih _
        · simp only [hc, hm, Bool.false_eq_true, if_false]
          simpa using ih _

theorem lastFolders_out (b : Build) (w : World) (am : Bool) (name : String) (exts : List String) (folders : List OsStr) : ∀ st,
    (eachFolderA (lastBodyA b w am) name exts st folders).out = (findLastFolders b w am name exts st folders >>= fun st => .ok (.cont st)) := by
  induction folders with
  | nil => intro st; rfl
  | cons d folders ih =>
    intro st
    rw [eachFolderA, findLastFolders, asking_bind_out, lastExts_out]
    cases findLastExts b w am (pathJoin d (os name)) st exts with
    | ok s => exact ih s
    | err e => rfl
    | panic => rfl

theorem findLastA_out (b : Build) (w : World) (f : FileFinder) (am : Bool) : (findLastA b w f am).out = findLast b w f am := by
  unfold findLastA findLast
  rw [asking_bind_out]
  simp only [Asking.quiet]
  congr 1; funext _
  rw [asking_bind_out, lastFolders_out]
  cases findLastFolders b w am f.fileName f.extensions (none, none) f.folders <;> rfl

theorem allExts_out (b : Build) (w : World) (am : Bool) (base : OsStr) (exts : List String) : ∀ st,
    (eachExtA (allBodyA b w am) base st exts).out = (findAllExts b w am base st exts >>= fun st => .ok (.cont st)) := by
  induction exts with
  | nil => intro st; rfl
  | cons e exts ih =>
    intro st
    rw [eachExtA, findAllExts, asking_bind_out]
    simp only [Asking.quiet]
    cases withExt base e with
    | err x => rfl
    | panic => rfl
    | ok file =>
      simp only [Outcome.bind_ok]
      rw [asking_bind_out]
      have key : (allBodyA b w am st file e).out =
          if (am || w.pathExists file) = true then incIndex b st.2 >>= fun i => .ok (.cont (st.1 ++ [(FindResult.new b w file e).withIndex st.2], i))
          else .ok (.cont st) := by
        cases am <;> cases hc : w.pathExists file <;> cases hi : incIndex b st.2 <;>
          simp [allBodyA, existsA, FindResult.newA, Asking.bind, Asking.pure, Asking.quiet, FindResult.new, hc, hi]
      rw [key]
      split
      · cases incIndex b st.2 with
        | ok i => exact ih _
        | err x => rfl
        | panic => rfl
      · exact ih _

theorem allFolders_out (b : Build) (w : World) (am : Bool) (name : String) (exts : List String) (folders : List OsStr) : ∀ st,
    (eachFolderA (allBodyA b w am) name exts st folders).out = (findAllFolders b w am name exts st folders >>= fun st => .ok (.cont st)) := by
  induction folders with
  | nil => intro st; rfl
  | cons d folders ih =>
    intro st
    rw [eachFolderA, findAllFolders, asking_bind_out, allExts_out]
    cases findAllExts b w am (pathJoin d (os name)) st exts with
    | ok s => exact ih s
    | err e => rfl
    | panic => rfl

theorem findAllA_out (b : Build) (w : World) (f : FileFinder) (am : Bool) : (findAllA b w f am).out = findAll b w f am := by
  unfold findAllA findAll
  rw [asking_bind_out]
  simp only [Asking.quiet]
  congr 1; funext _
  rw [asking_bind_out, allFolders_out]
  cases findAllFolders b w am f.fileName f.extensions ([], 0) f.folders <;> rfl

theorem allOrFirstExts_out (b : Build) (w : World) (base : OsStr) (exts : List String) : ∀ st,
    (eachExtA (allOrFirstBodyA b w) base st exts).out = (findAllOrFirstExts b w base st exts >>= fun st => .ok (.cont st)) := by
  induction exts with
  | nil => intro st; rfl
  | cons e exts ih =>
    intro st
    rw [eachExtA, findAllOrFirstExts, asking_bind_out]
    simp only [Asking.quiet]
    cases withExt base e with
    | err x => rfl
    | panic => rfl
    | ok file =>
      simp only [Outcome.bind_ok]
      rw [asking_bind_out]
      by_cases hc : w.pathExists file = true
      · cases hi : incIndex b st.index with
        | ok i =>
          simp only [allOrFirstBodyA, existsA, FindResult.newA, Asking.bind, Asking.pure, Asking.quiet, hc, hi, if_true]
          simpa [FindResult.new, hc] using ih _
        | err x => simp [allOrFirstBodyA, existsA, FindResult.newA, Asking.bind, Asking.pure, Asking.quiet, hc, hi]
        | panic => simp [allOrFirstBodyA, existsA, FindResult.newA, Asking.bind, Asking.pure, Asking.quiet, hc, hi]
      · simp only [allOrFirstBodyA, existsA, FindResult.newA, Asking.bind, Asking.pure]
        by_cases hm : st.first.isNone = true
        · simp only [hc, hm, if_true, Bool.false_eq_true, if_false]
          simpa [FindResult.new, hc] using ih _
        · simp only [hc, hm, Bool.false_eq_true, if_false]
          simpa using ih _

theorem allOrFirstFolders_out (b : Build) (w : World) (name : String) (exts : List String) (folders : List OsStr) : ∀ st,
    (eachFolderA (allOrFirstBodyA b w) name exts st folders).out = (findAllOrFirstFolders b w name exts st folders >>= fun st => .ok (.cont st)) := by
  induction folders with
  | nil => intro st; rfl
  | cons d folders ih =>
    intro st
    rw [eachFolderA, findAllOrFirstFolders, asking_bind_out, allOrFirstExts_out]
    cases findAllOrFirstExts b w (pathJoin d (os name)) st exts with
    | ok s => exact ih s
    | err e => rfl
    | panic => rfl

theorem findAllOrFirstA_out (b : Build) (w : World) (f : FileFinder) : (findAllOrFirstA b w f).out = findAllOrFirst b w f := by
  unfold findAllOrFirstA findAllOrFirst
  rw [asking_bind_out]
  simp only [Asking.quiet]
  congr 1; funext _
  rw [asking_bind_out, allOrFirstFolders_out]
  cases findAllOrFirstFolders b w f.fileName f.extensions ⟨[], none, 0⟩ f.folders <;> rfl

/-! ### What is asked -/

theorem foldAsk_cons_asks {ρ σ : Type} (body : σ → OsStr → String → Asking (Flow ρ σ)) (st : σ) (c : OsStr × String) (cs : List (OsStr × String)) :
    (foldAsk body st (c :: cs)).asks = (body st c.1 c.2).asks ++
      match (body st c.1 c.2).out with
      | .ok (.cont st) => (foldAsk body st cs).asks
      | _ => [] := by
  rw [foldAsk, Asking.bind]
  cases (body st c.1 c.2).out with
  | ok x => cases x <;> simp [Asking.pure]
  | err e => simp
  | panic => simp

/-- A search whose last part asks nothing. -/
theorem search_asks {ρ σ α : Type} {f : FileFinder} (h : Ready f) (body : σ → OsStr → String → Asking (Flow ρ σ)) (st : σ) (fin : Flow ρ σ → Asking α)
    (hq : ∀ x, (fin x).asks = []) :
    ((Asking.quiet f.validate).bind fun _ => (eachFolderA body f.fileName f.extensions st f.folders).bind fin).asks =
      (foldAsk body st (candidates f)).asks := by
  rw [validate_ready h, asking_bind_quiet_ok, eachFolderA_eq body _ _ h.noSep, ← candidates_eq, Asking.bind]
  cases (foldAsk body st (candidates f)).out <;> simp [hq]

theorem first_asks (b : Build) (w : World) (am : Bool) (cs : List (OsStr × String)) : ∀ (first : Option FindResult) (before : List OsStr),
    (am = true → first.isNone = before.isEmpty) →
    (foldAsk (firstBodyA b w am) first cs).asks =
      looksAfter (fun before p => twiceIf (w.pathExists p || (am && before.isEmpty))) before (consulted w (cs.map Prod.fst)) := by
  induction cs with
  | nil => intro first before _; rfl
  | cons c cs ih =>
    intro first before h
    rw [foldAsk_cons_asks, List.map_cons, consulted]
    simp only [firstBodyA, existsA, FindResult.newA, Asking.bind, Asking.pure]
    by_cases hc : w.pathExists c.1 = true
    · simp [hc, looksAfter, twiceIf]
    · by_cases hm : (am && first.isNone) = true
      · have hm' : (am && before.isEmpty) = true := by
          simp only [Bool.and_eq_true] at hm ⊢; exact ⟨hm.1, (h hm.1) ▸ hm.2⟩
        have := ih (some { path := c.1, extension := FileExtension.ofStr b c.2, index := 0, exists' := w.pathExists c.1 }) (before ++ [c.1]) (by simp)
        simp only [hc, hm, if_true, Bool.false_eq_true, if_false, looksAfter]
        rw [← this]
        simp [hc, hm', twiceIf]
      · have hm' : (am && before.isEmpty) = false := by
          cases am with
          | false => rfl
          | true => simpa [h rfl] using hm
        have := ih first (before ++ [c.1]) (by
          intro ha; subst ha; simp only [Bool.true_and] at hm
          have : (before ++ [c.1]).isEmpty = false := by cases before <;> rfl
          rw [this]; exact eq_false_of_ne_true hm)
        simp only [hc, hm, Bool.false_eq_true, if_false, looksAfter]
        rw [← this]
        simp [hc, hm', twiceIf]

/-- **C136.** `find_first` asks exactly this, and its answer is the one the model of the search gives. -/
theorem C136_find_first (b : Build) (w : World) (f : FileFinder) (am : Bool) :
    (findFirstA b w f am).out = findFirst b w f am ∧ (Ready f → (findFirstA b w f am).asks = firstLooks w am (paths f)) := by
  refine ⟨findFirstA_out b w f am, fun h => ?_⟩
  unfold findFirstA
  rw [search_asks h _ _ _ (fun x => by cases x <;> rfl), first_asks b w am _ none [] (fun _ => rfl)]
  rfl

theorem last_asks (b : Build) (w : World) (am : Bool) (cs : List (OsStr × String)) : ∀ (st : Option FindResult × Option FindResult) (before : List OsStr),
    st.1.isNone = !before.any w.pathExists →
    (foldAsk (lastBodyA b w am) st cs).asks =
      looksAfter (fun before p => twiceIf (w.pathExists p || (am && !before.any w.pathExists))) before (cs.map Prod.fst) := by
  induction cs with
  | nil => intro st before _; rfl
  | cons c cs ih =>
    intro st before h
    rw [foldAsk_cons_asks, List.map_cons, looksAfter]
    simp only [lastBodyA, existsA, FindResult.newA, Asking.bind, Asking.pure]
    by_cases hc : w.pathExists c.1 = true
    · have := ih (some { path := c.1, extension := FileExtension.ofStr b c.2, index := 0, exists' := w.pathExists c.1 }, st.2) (before ++ [c.1]) (by simp [hc])
      simp only [hc, if_true]
      rw [← this]
      simp [twiceIf, hc]
    · by_cases hm : (am && st.1.isNone) = true
      · simp only [hc, hm, if_true, Bool.false_eq_true, if_false]
        have := ih (st.1, some { path := c.1, extension := FileExtension.ofStr b c.2, index := 0, exists' := w.pathExists c.1 }) (before ++ [c.1]) (by simpa [hc] using h)
        rw [← this]
        rw [h] at hm
        simp only [hm]
        simp [twiceIf, hc]
      · simp only [hc, hm, Bool.false_eq_true, if_false]
        rw [← ih _ (before ++ [c.1]) (by simpa [hc] using h)]
        rw [h] at hm
        simp only [hm]
        simp [twiceIf]

/-- **C136.** `find_last`. -/
theorem C136_find_last (b : Build) (w : World) (f : FileFinder) (am : Bool) :
    (findLastA b w f am).out = findLast b w f am ∧ (Ready f → (findLastA b w f am).asks = lastLooks w am (paths f)) := by
  refine ⟨findLastA_out b w f am, fun h => ?_⟩
  unfold findLastA
  rw [search_asks h _ _ _ (fun x => by cases x with | ret r => exact r.elim | cont s => rfl), last_asks b w am _ (none, none) [] rfl]
  rfl

/-- A list of asks that a panic may have cut short. -/
def CutBy {α : Type} (o : Outcome BakuninError α) (got full : List Ask) : Prop := got <+: full ∧ (o ≠ .panic → got = full)

theorem cut_cons {ρ σ : Type} {body : σ → OsStr → String → Asking (Flow ρ σ)} {st st' : σ} {c : OsStr × String} {cs : List (OsStr × String)}
    {a rest : List Ask} (ha : (body st c.1 c.2).asks = a)
    (ho : (body st c.1 c.2).out = .panic ∨ (body st c.1 c.2).out = .ok (.cont st') ∧ CutBy (foldAsk body st' cs).out (foldAsk body st' cs).asks rest) :
    CutBy (foldAsk body st (c :: cs)).out (foldAsk body st (c :: cs)).asks (a ++ rest) := by
  rw [foldAsk_cons_asks]
  rcases ho with ho | ⟨ho, hr⟩
  · have : (foldAsk body st (c :: cs)).out = .panic := by rw [foldAsk, asking_bind_out, ho]; rfl
    rw [ho, this, ha]
    exact ⟨by simp, fun h => absurd rfl h⟩
  · have : (foldAsk body st (c :: cs)).out = (foldAsk body st' cs).out := by rw [foldAsk, asking_bind_out, ho]; rfl
    rw [ho, this, ha]
    obtain ⟨t, ht⟩ := hr.1
    exact ⟨⟨t, by rw [List.append_assoc, ht]⟩, fun h => by simp only []; rw [hr.2 h]⟩

theorem incIndex_cases (b : Build) (i : Nat) : incIndex b i = .panic ∨ ∃ j, incIndex b i = .ok j := by
  unfold incIndex; split
  · exact .inr ⟨_, rfl⟩
  · split
    · exact .inl rfl
    · exact .inr ⟨_, rfl⟩

theorem all_asks (b : Build) (w : World) (am : Bool) (cs : List (OsStr × String)) : ∀ (st : List FindResult × Nat) (before : List OsStr),
    CutBy (foldAsk (allBodyA b w am) st cs).out (foldAsk (allBodyA b w am) st cs).asks
      (looksAfter (fun _ p => twiceIf (!am && w.pathExists p)) before (cs.map Prod.fst)) := by
  induction cs with
  | nil => intro st before; exact ⟨List.prefix_refl _, fun _ => rfl⟩
  | cons c cs ih =>
    intro st before
    rw [List.map_cons, looksAfter]
    rcases incIndex_cases b st.2 with hi | ⟨j, hi⟩
    · by_cases hc : (am || w.pathExists c.1) = true
      · refine cut_cons (st' := st) ?_ (.inl ?_)
        all_goals cases am <;> simp_all [allBodyA, existsA, FindResult.newA, Asking.bind, Asking.pure, Asking.quiet, twiceIf]
      · refine cut_cons (st' := st) ?_ (.inr ⟨?_, ih _ _⟩)
        all_goals cases am <;> simp_all [allBodyA, existsA, FindResult.newA, Asking.bind, Asking.pure, Asking.quiet, twiceIf]
    · by_cases hc : (am || w.pathExists c.1) = true
      · refine cut_cons (st' := (st.1 ++ [({ path := c.1, extension := FileExtension.ofStr b c.2, index := 0, exists' := w.pathExists c.1 } : FindResult).withIndex st.2], j)) ?_ (.inr ⟨?_, ih _ _⟩)
        all_goals cases am <;> simp_all [allBodyA, existsA, FindResult.newA, Asking.bind, Asking.pure, Asking.quiet, twiceIf]
      · refine cut_cons (st' := st) ?_ (.inr ⟨?_, ih _ _⟩)
        all_goals cases am <;> simp_all [allBodyA, existsA, FindResult.newA, Asking.bind, Asking.pure, Asking.quiet, twiceIf]

/-- The loop panics exactly when the search does. -/
theorem search_panic {σ α : Type} {f : FileFinder} (h : Ready f) (body : σ → OsStr → String → Asking (Flow Empty σ)) (st : σ) (fin : Flow Empty σ → Asking α)
    (hn : ((Asking.quiet f.validate).bind fun _ => (eachFolderA body f.fileName f.extensions st f.folders).bind fin).out ≠ .panic) :
    (foldAsk body st (candidates f)).out ≠ .panic := by
  rw [validate_ready h, asking_bind_quiet_ok, eachFolderA_eq body _ _ h.noSep, ← candidates_eq, asking_bind_out] at hn
  intro hp; rw [hp] at hn; exact hn rfl

/-- **C136.** `find_all`. (It can panic, when it numbers more than 65535 files in a build with overflow checks; then it has asked a part of this.) -/
theorem C136_find_all (b : Build) (w : World) (f : FileFinder) (am : Bool) :
    (findAllA b w f am).out = findAll b w f am ∧
    (Ready f → (findAllA b w f am).asks <+: allLooks w am (paths f) ∧
      (findAll b w f am ≠ .panic → (findAllA b w f am).asks = allLooks w am (paths f))) := by
  refine ⟨findAllA_out b w f am, fun h => ?_⟩
  have key := all_asks b w am (candidates f) ([], 0) []
  rw [← findAllA_out]
  unfold findAllA
  rw [search_asks h _ _ _ (fun x => by cases x with | ret r => exact r.elim | cont s => rfl)]
  exact ⟨key.1, fun hn => key.2 (search_panic h _ _ _ hn)⟩

theorem allOrFirst_asks (b : Build) (w : World) (cs : List (OsStr × String)) : ∀ (st : AllOrFirst) (before : List OsStr),
    st.first.isNone = before.all w.pathExists →
    CutBy (foldAsk (allOrFirstBodyA b w) st cs).out (foldAsk (allOrFirstBodyA b w) st cs).asks
      (looksAfter (fun before p => twiceIf (w.pathExists p || before.all w.pathExists)) before (cs.map Prod.fst)) := by
  induction cs with
  | nil => intro st before _; exact ⟨List.prefix_refl _, fun _ => rfl⟩
  | cons c cs ih =>
    intro st before h
    rw [List.map_cons, looksAfter]
    by_cases hc : w.pathExists c.1 = true
    · rcases incIndex_cases b st.index with hi | ⟨j, hi⟩
      · refine cut_cons (st' := st) ?_ (.inl ?_)
        all_goals simp [allOrFirstBodyA, existsA, FindResult.newA, Asking.bind, Asking.pure, Asking.quiet, twiceIf, hc, hi]
      · refine cut_cons (st' := { st with files := st.files ++ [({ path := c.1, extension := FileExtension.ofStr b c.2, index := 0, exists' := w.pathExists c.1 } : FindResult).withIndex st.index], index := j }) ?_ (.inr ⟨?_, ih _ _ ?_⟩)
        · simp [allOrFirstBodyA, existsA, FindResult.newA, Asking.bind, Asking.pure, Asking.quiet, twiceIf, hc, hi]
        · simp [allOrFirstBodyA, existsA, FindResult.newA, Asking.bind, Asking.pure, Asking.quiet, hc, hi]
        · simp [hc, h]
    · have hcf : w.pathExists c.1 = false := by simpa using hc
      by_cases hm : st.first.isNone = true
      · have hb : before.all w.pathExists = true := h ▸ hm
        refine cut_cons (st' := { st with first := some { path := c.1, extension := FileExtension.ofStr b c.2, index := 0, exists' := w.pathExists c.1 } }) ?_ (.inr ⟨?_, ih _ _ ?_⟩)
        · simp only [hb]; simp [allOrFirstBodyA, existsA, FindResult.newA, Asking.bind, Asking.pure, twiceIf, hcf, hm]
        · simp [allOrFirstBodyA, existsA, FindResult.newA, Asking.bind, Asking.pure, hcf, hm]
        · simp [hcf]
      · have hb : before.all w.pathExists = false := by rw [← h]; exact eq_false_of_ne_true hm
        refine cut_cons (st' := st) ?_ (.inr ⟨?_, ih _ _ ?_⟩)
        · simp only [hb]; simp [allOrFirstBodyA, existsA, Asking.bind, Asking.pure, twiceIf, hcf, hm]
        · simp [allOrFirstBodyA, existsA, Asking.bind, Asking.pure, hcf, hm]
        · rw [h, List.all_append, hb]; simp

/-- **C136.** `find_all_or_first`. -/
theorem C136_find_all_or_first (b : Build) (w : World) (f : FileFinder) :
    (findAllOrFirstA b w f).out = findAllOrFirst b w f ∧
    (Ready f → (findAllOrFirstA b w f).asks <+: allOrFirstLooks w (paths f) ∧
      (findAllOrFirst b w f ≠ .panic → (findAllOrFirstA b w f).asks = allOrFirstLooks w (paths f))) := by
  refine ⟨findAllOrFirstA_out b w f, fun h => ?_⟩
  have key := allOrFirst_asks b w (candidates f) ⟨[], none, 0⟩ [] rfl
  rw [← findAllOrFirstA_out]
  unfold findAllOrFirstA
  rw [search_asks h _ _ _ (fun x => by cases x with | ret r => exact r.elim | cont s => rfl)]
  exact ⟨key.1, fun hn => key.2 (search_panic h _ _ _ hn)⟩

/-! ### How many -/

theorem looksAfter_bound (times : List OsStr → OsStr → Nat) (n : Nat) (h : ∀ before p, times before p ≤ n) (ps : List OsStr) : ∀ before,
    (looksAfter times before ps).length ≤ n * ps.length ∧ ∀ a ∈ looksAfter times before ps, ∃ p ∈ ps, a = .exists p := by
  induction ps with
  | nil => intro _; simp [looksAfter]
  | cons p ps ih =>
    intro before
    obtain ⟨h1, h2⟩ := ih (before ++ [p])
    have := h before p
    refine ⟨?_, fun a ha => ?_⟩
    · rw [looksAfter, List.length_append, List.length_replicate, List.length_cons, Nat.mul_succ]; omega
    · rcases List.mem_append.1 ha with ha | ha
      · exact ⟨p, by simp, (List.mem_replicate.1 ha).2⟩
      · obtain ⟨q, hq, e⟩ := h2 a ha
        exact ⟨q, by simp [hq], e⟩

theorem twiceIf_le (c : Bool) : twiceIf c ≤ 2 := by cases c <;> decide

theorem consulted_sublist (w : World) (ps : List OsStr) : (consulted w ps).Sublist ps := by
  induction ps with
  | nil => exact List.Sublist.refl _
  | cons p ps ih =>
    rw [consulted]
    split
    · exact List.Sublist.cons_cons _ (List.nil_sublist _)
    · exact List.Sublist.cons_cons _ ih

/-- After the first, `find_first` looks at most once at each but the last. -/
theorem firstLooks_length (w : World) (am : Bool) (ps : List OsStr) : (firstLooks w am ps).length ≤ (consulted w ps).length + 2 := by
  have key : ∀ (ps before : List OsStr), before ≠ [] →
      (looksAfter (fun before p => twiceIf (w.pathExists p || (am && before.isEmpty))) before (consulted w ps)).length ≤ (consulted w ps).length + 1 := by
    intro ps
    induction ps with
    | nil => intro _ _; simp [consulted, looksAfter]
    | cons p ps ih =>
      intro before hb
      rw [consulted]
      have hbe : before.isEmpty = false := by cases before <;> simp_all
      by_cases hp : w.pathExists p = true
      · simp [hp, looksAfter, twiceIf]
      · have := ih (before ++ [p]) (by simp)
        simp only [hp, Bool.false_eq_true, if_false, looksAfter, List.length_append, List.length_replicate, List.length_cons, hbe, Bool.and_false, Bool.or_false]
        have h1 : twiceIf false = 1 := rfl
        omega
  unfold firstLooks looks
  cases ps with
  | nil => simp [consulted, looksAfter]
  | cons p ps =>
    rw [consulted]
    by_cases hp : w.pathExists p = true
    · simp [hp, looksAfter, twiceIf]
    · simp only [hp, Bool.false_eq_true, if_false, looksAfter, List.length_append, List.length_replicate, List.length_cons]
      have := key ps ([] ++ [p]) (by simp)
      have h2 := twiceIf_le (false || (am && ([] : List OsStr).isEmpty))
      omega

/-- **C136.** No search asks anything but whether one of its candidates exists, and that at most twice for each; without folders or extensions it
asks nothing. `find_first` asks at most two more than there are candidates up to the first that exists. -/
theorem C136_bound (b : Build) (w : World) (f : FileFinder) (am : Bool) :
    (Ready f → ∀ asks ∈ [(findFirstA b w f am).asks, (findLastA b w f am).asks, (findAllA b w f am).asks, (findAllOrFirstA b w f).asks],
      asks.length ≤ 2 * (f.folders.length * f.extensions.length) ∧ ∀ a ∈ asks, ∃ p ∈ paths f, a = .exists p) ∧
    (Ready f → (findFirstA b w f am).asks.length ≤ (consulted w (paths f)).length + 2) ∧
    (f.folders = [] ∨ f.extensions = [] → (findFirstA b w f am).asks = [] ∧ (findLastA b w f am).asks = [] ∧ (findAllA b w f am).asks = [] ∧
      (findAllOrFirstA b w f).asks = []) := by
  have hlen : (paths f).length = f.folders.length * f.extensions.length := by
    unfold paths candidates
    rw [List.length_map, List.length_flatMap]
    simp
  refine ⟨fun h => ?_, fun h => ?_, fun h => ?_⟩
  · rw [← hlen]
    have bound : ∀ (times : List OsStr → OsStr → Nat) (hle : ∀ before p, times before p ≤ 2) (ps : List OsStr), ps.Sublist (paths f) →
        (looks times ps).length ≤ 2 * (paths f).length ∧ ∀ a ∈ looks times ps, ∃ p ∈ paths f, a = .exists p := by
      intro times hle ps hs
      obtain ⟨h1, h2⟩ := looksAfter_bound times 2 hle ps []
      exact ⟨le_trans h1 (Nat.mul_le_mul_left 2 hs.length_le), fun a ha => by
        obtain ⟨p, hp, e⟩ := h2 a ha; exact ⟨p, hs.subset hp, e⟩⟩
    have cut : ∀ {x y : List Ask}, x <+: y → (y.length ≤ 2 * (paths f).length ∧ ∀ a ∈ y, ∃ p ∈ paths f, a = .exists p) →
        x.length ≤ 2 * (paths f).length ∧ ∀ a ∈ x, ∃ p ∈ paths f, a = .exists p :=
      fun hx hy => ⟨le_trans hx.length_le hy.1, fun a ha => hy.2 a (hx.subset ha)⟩
    intro asks ha
    simp only [List.mem_cons, List.not_mem_nil, or_false] at ha
    rcases ha with rfl | rfl | rfl | rfl
    · rw [(C136_find_first b w f am).2 h]
      exact bound _ (fun _ _ => twiceIf_le _) _ (consulted_sublist w _)
    · rw [(C136_find_last b w f am).2 h]
      exact bound _ (fun _ _ => twiceIf_le _) _ (List.Sublist.refl _)
    · exact cut ((C136_find_all b w f am).2 h).1 (bound _ (fun _ _ => twiceIf_le _) _ (List.Sublist.refl _))
    · exact cut ((C136_find_all_or_first b w f).2 h).1 (bound _ (fun _ _ => twiceIf_le _) _ (List.Sublist.refl _))
  · rw [(C136_find_first b w f am).2 h]
    exact firstLooks_length w am _
  · have hv : ∃ e, f.validate = .err e := by
      unfold FileFinder.validate
      rcases h with h | h
      · exact ⟨_, by simp [h]; rfl⟩
      · by_cases h' : f.folders = []
        · exact ⟨_, by simp [h']; rfl⟩
        · exact ⟨_, by simp [h, h']; rfl⟩
    obtain ⟨e, hv⟩ := hv
    unfold findFirstA findLastA findAllA findAllOrFirstA
    rw [hv]
    exact ⟨rfl, rfl, rfl, rfl⟩

/-! ## Layers and the build -/

theorem readValueA_eq (w : World) (l : Layer) : l.readValueA w = (layerAsks w l, l.readValue w) := by
  cases l with
  | memory v => rfl
  | environment pre =>
    simp only [Layer.readValueA, layerAsks, Layer.readValue, Layer.readEnv]
    by_cases h : pre = ""
    · subst h; rfl
    · have : pre.isEmpty = false := by simpa using h
      simp [this, h]
  | file hd p =>
    simp only [Layer.readValueA, layerAsks, Layer.readValue]
    by_cases h : w.pathExists p = true
    · simp [h]
    · simp [h]
  | user l => rfl

theorem buildLoopA_eq (w : World) (c : Config) (skip : Bool) (ls : List (String × Layer)) :
    ∀ value, (∀ e ∈ ls, hmGet c.layers e.1 = some e.2) →
      Config.buildLoopA w c skip value (ls.map Prod.fst) = ((readTo w skip ls).flatMap (fun e => layerAsks w e.2), buildList w skip value ls) := by
  induction ls with
  | nil => intro value _; rfl
  | cons e ls ih =>
    intro value h
    rw [List.map_cons, Config.buildLoopA, h e (by simp), buildList, readTo]
    have ih := fun value => ih value (fun x hx => h x (by simp [hx]))
    simp only [readValueA_eq]
    cases e.2.readValue w with
    | error x => cases skip <;> simp [ih]
    | ok v => simp [ih]

/-- **C136.** Building asks for each layer, in order, what reading it takes, and nothing else: nothing for a layer in memory, the environment once for an
environment layer, for a file whether it is there and, if so, its content, once. With `skip` every layer is asked, without it those up to the first
that cannot be read. The answer is the one the model of the build gives. -/
theorem C136_build (b : Build) (fm : Formats) (calls : List RegCall) (w : World) (skip : Bool) :
    ((register b fm calls).buildValueA w skip).2 = (register b fm calls).buildValue w skip ∧
    ((register b fm calls).buildValueA w skip).1 = (readTo w skip (firsts (offers b fm calls))).flatMap fun e => layerAsks w e.2 := by
  have hi := is_register b fm calls
  rw [buildValue_is hi]
  obtain ⟨h1, h2, h3⟩ := hi
  unfold Config.buildValueA
  rw [h2, buildLoopA_eq]
  · exact ⟨rfl, rfl⟩
  · intro e he
    rw [h1]; exact hmGet_of_mem' h3 he

/-- With `skip` every layer is read; without it all that come before an unreadable one, and that one. -/
theorem readTo_spec (w : World) (ls : List (String × Layer)) :
    readTo w true ls = ls ∧
    ((∀ e ∈ ls, ∃ v, e.2.readValue w = .ok v) → readTo w false ls = ls) ∧
    (∀ before e after x, ls = before ++ e :: after → (∀ d ∈ before, ∃ v, d.2.readValue w = .ok v) → e.2.readValue w = .error x →
      readTo w false ls = before ++ [e]) := by
  induction ls with
  | nil => exact ⟨rfl, fun _ => rfl, fun before e after x h => by simp at h⟩
  | cons a ls ih =>
    refine ⟨?_, fun h => ?_, fun before e after x hs hb he => ?_⟩
    · rw [readTo, ih.1]; cases a.2.readValue w <;> rfl
    · obtain ⟨v, hv⟩ := h a (by simp)
      rw [readTo, hv, ih.2.1 fun e he => h e (by simp [he])]
    · cases before with
      | nil => cases hs; rw [readTo, he]; rfl
      | cons d before =>
        obtain ⟨rfl, rfl⟩ := List.cons.inj hs
        obtain ⟨v, hv⟩ := hb a (by simp)
        rw [readTo, hv, List.cons_append]
        exact congrArg (a :: ·) (ih.2.2 before e after x rfl (fun d hd => hb d (by simp [hd])) he)

theorem readTo_sublist (w : World) (skip : Bool) (ls : List (String × Layer)) : (readTo w skip ls).Sublist ls := by
  induction ls with
  | nil => exact List.Sublist.refl _
  | cons a ls ih =>
    rw [readTo]
    cases a.2.readValue w with
    | ok v => exact ih.cons_cons _
    | error x => cases skip with
      | true => exact ih.cons_cons _
      | false => exact List.Sublist.cons_cons _ (List.nil_sublist _)

/-- **C136.** A build of the crate's own layers asks at most twice per layer, never writes, asks for directories never, opens a file at most once for each
layer registered for it, and looks only at files that were registered. -/
theorem C136_build_bound (b : Build) (fm : Formats) (calls : List RegCall) (hb : ∀ c ∈ calls, c.BuiltIn) (w : World) (skip : Bool) :
    ((register b fm calls).buildValueA w skip).1.length ≤ 2 * (firsts (offers b fm calls)).length ∧
    (∀ a ∈ ((register b fm calls).buildValueA w skip).1, a = .vars ∨ ∃ p, (a = .exists p ∨ a = .read p ∧ w.pathExists p = true) ∧ ∃ name, RegCall.file name p ∈ calls) ∧
    ∀ p, ((register b fm calls).buildValueA w skip).1.count (.read p) ≤ ((firsts (offers b fm calls)).filter (forFile p)).length := by
  rw [(C136_build b fm calls w skip).2]
  have hmem : ∀ e ∈ readTo w skip (firsts (offers b fm calls)), ∃ c ∈ calls, c.offer b fm = some e := fun e he =>
    List.mem_filterMap.1 (mem_firsts ((readTo_sublist w skip _).subset he))
  refine ⟨?_, fun a ha => ?_, fun p => ?_⟩
  · refine le_trans ?_ (Nat.mul_le_mul_left 2 (readTo_sublist w skip _).length_le)
    generalize readTo w skip (firsts (offers b fm calls)) = ls
    induction ls with
    | nil => simp
    | cons e ls ih =>
      rw [List.flatMap_cons, List.length_append, List.length_cons]
      have : (layerAsks w e.2).length ≤ 2 := by
        unfold layerAsks; split
        · simp
        · split <;> simp
        · split <;> simp
        · simp
      omega
  · obtain ⟨e, he, ha⟩ := List.mem_flatMap.1 ha
    obtain ⟨c, hc, ho⟩ := hmem e he
    have := hb c hc
    cases c with
    | layer => exact this.elim
    | memory n v => cases ho; cases ha
    | environment n pre =>
      cases ho
      simp only [layerAsks] at ha
      split at ha
      · cases ha
      · simp at ha; exact .inl ha
    | file n p =>
      obtain ⟨cd, rfl, -⟩ := offer_file ho
      simp only [layerAsks] at ha
      right
      refine ⟨p, ?_, n, hc⟩
      split at ha
      · rename_i h
        simp at ha
        rcases ha with ha | ha
        · exact .inl ha
        · exact .inr ⟨ha, h⟩
      · simp at ha; exact .inl ha
  · refine le_trans ?_ (((readTo_sublist w skip _).filter (forFile p)).length_le)
    generalize readTo w skip (firsts (offers b fm calls)) = ls
    induction ls with
    | nil => simp
    | cons e ls ih =>
      rw [List.flatMap_cons, List.count_append, List.filter_cons]
      have : (layerAsks w e.2).count (.read p) ≤ if forFile p e = true then 1 else 0 := by
        unfold layerAsks forFile; split <;> rename_i heq <;> rw [heq]
        · simp
        · split <;> simp
        · rename_i q
          by_cases hq : q = p
          · subst hq; split <;> simp
          · split <;> simp [List.count_cons, hq]
        · simp
      split at this
      · rename_i h; rw [if_pos h, List.length_cons]; omega
      · rename_i h; rw [if_neg h]; omega

/-- **C136.** Writing to a layer hands the value to the file's format once; the layers that take no value ask nothing. -/
theorem C136_write (w : World) (v : Value) (l : Layer) :
    (l.writeValueA w v).2 = l.writeValue w v ∧
    (∀ x, l = .memory x → (l.writeValueA w v).1 = []) ∧ (∀ pre, l = .environment pre → (l.writeValueA w v).1 = []) ∧
    (∀ hd p, l = .file hd p → (l.writeValueA w v).1 = [.write p]) := by
  cases l <;> simp [Layer.writeValueA, Layer.writeValue]

/-! ## `create_config!` -/

theorem toPathBufA_eq (w : World) (d : OSDirectory) : d.toPathBufA w = (dirAsks w d, d.toPathBuf w) := by
  unfold OSDirectory.toPathBufA dirAsks OSDirectory.toPathBuf
  cases w.baseDirs with
  | none => simp
  | some dir => cases d <;> simp

theorem withDirsA_eq (w : World) (ds : List OSDirectory) : ∀ f : FileFinder,
    FileFinder.withDirsA w f ds = (ds.flatMap (dirAsks w), ds.foldl (FileFinder.withOsDirectory w) f) := by
  induction ds with
  | nil => intro f; rfl
  | cons d ds ih =>
    intro f
    rw [FileFinder.withDirsA, toPathBufA_eq]
    simp only [ih, List.flatMap_cons, List.foldl_cons]
    rfl

theorem layerFinderA_eq (b : Build) (w : World) (name : String) (l : LayerSpec) :
    (layerFinderA b w name l.dirs).out = layerFinder b w name l.dirs ∧
    (layerFinderA b w name l.dirs).asks = l.dirs.flatMap (dirAsks w) ++ firstLooks w true (layerCandidates b w name l) := by
  unfold layerFinderA layerFinder
  rw [withDirsA_eq]
  refine ⟨(C136_find_first b w _ true).1, ?_⟩
  simp only []
  congr 1
  rw [macroFinder_eq]
  generalize hf : (⟨l.dirs.filterMap (OSDirectory.toPathBuf w), name, enabled b⟩ : FileFinder) = f
  have hc : paths f = layerCandidates b w name l := hf ▸ candidates_map b w name l
  rw [← hc]
  by_cases h : f.folders = [] ∨ f.extensions = []
  · rw [((C136_bound b w f true).2.2 h).1]
    have : paths f = [] := by
      unfold paths candidates
      rcases h with h | h <;> rw [h] <;> simp
    rw [this]; rfl
  · rw [not_or] at h
    exact (C136_find_first b w f true).2 ⟨h.1, h.2, by rw [← hf]; exact enabled_noSep b⟩

theorem supported_offer {b : Build} {fm : Formats} {n : String} {p : OsStr} :
    ((RegCall.file n p).offer b fm).isSome = true ↔ InEnabledFormat b p := by
  simp only [RegCall.offer, InEnabledFormat]
  by_cases h1 : b.toml = true ∧ pathExtension p = some (os "toml")
  · simp [h1]
  · by_cases h2 : b.json = true ∧ pathExtension p = some (os "json")
    · rw [if_neg h1, if_pos h2]; simp [h2]
    · simp [h1, h2]

/-- What the layers of the macro can be. -/
def PlainLayer (l : Layer) : Prop := (∃ v, l = .memory v) ∨ ∃ hd p, l = .file hd p

theorem initLayerA_eq (b : Build) (w : World) (c : Config) (l : LayerSpec) (p : OsStr) (dv : Value) (added : Bool) (ha : added = true ↔ InEnabledFormat b p)
    (hp : ∀ x, c.getLayer l.name = some x → PlainLayer x) :
    initLayerA w c added p l dv = (initAsks b w l c p, initLayer w c added p l dv) := by
  unfold initLayerA initAsks initLayer
  cases hi : l.init with
  | none => simp
  | some flag =>
    by_cases hs : InEnabledFormat b p
    · have : added = true := ha.2 hs
      subst this
      by_cases he : w.pathExists p = true
      · simp [he, hs]
      · have he' : w.pathExists p = false := by simpa using he
        cases flag with
        | false => simp [he', hs]
        | true =>
          cases hg : c.getLayer l.name with
          | none => simp [he', hs]
          | some x =>
            rcases hp x hg with ⟨v, rfl⟩ | ⟨hd, q, rfl⟩
            · simp [he', hs, Layer.writeValueA, Layer.writeValue]
            · simp [he', hs, Layer.writeValueA, Layer.writeValue]
    · have : added = false := by
        cases added with
        | false => rfl
        | true => exact absurd (ha.1 rfl) hs
      subst this
      simp [hs]

theorem macroLayerA_eq (b : Build) (fm : Formats) (name : String) (dv : Value) (st : Config × World) (l : LayerSpec)
    (hp : ∀ x, (mStep b fm name dv st l).1.getLayer l.name = some x → PlainLayer x) :
    macroLayerA b fm name dv st l = ⟨startAsks b st.2 name l (mStep b fm name dv st l).1, .ok (mStep b fm name dv st l)⟩ := by
  obtain ⟨h1, h2⟩ := layerFinderA_eq b st.2 name l
  unfold macroLayerA startAsks
  unfold mStep at hp ⊢
  simp only [h1, h2]
  rcases layerFinder_spec b st.2 name l with ⟨r, g1, g2⟩ | ⟨e, g1, g2⟩
  · rw [g1]
    simp only [g2] at hp ⊢
    simp only [RegCall.apply, addFileLayer_eq] at hp ⊢
    cases ho : (RegCall.file l.name r.path).offer b fm with
    | none =>
      have hs : ¬ InEnabledFormat b r.path := fun h => by
        have := (supported_offer (fm := fm) (n := l.name)).2 h; rw [ho] at this; cases this
      rw [ho] at hp
      simp only [Option.isSome_none] at hp ⊢
      rw [initLayerA_eq b _ _ _ _ _ false (by simp [hs]) hp]
      rfl
    | some e =>
      have hs : InEnabledFormat b r.path := (supported_offer (fm := fm) (n := l.name)).1 (by rw [ho]; rfl)
      rw [ho] at hp
      simp only [Option.isSome_some] at hp ⊢
      rw [initLayerA_eq b _ _ _ _ _ true (by simp [hs]) hp]
      rfl
  · rw [g1]
    rw [chosen_none.2 g2]
    simp [takenAsks]

theorem layers_push {P : Layer → Prop} {c : Config} (h : ∀ n x, c.getLayer n = some x → P x) {n : String} {l : Layer} (hl : P l) :
    ∀ m x, (c.pushLayer n l).getLayer m = some x → P x := by
  intro m x hx
  unfold Config.pushLayer at hx
  split at hx
  · exact h m x hx
  · unfold Config.getLayer at hx
    simp only [] at hx
    rw [hmGet_insert] at hx
    split at hx
    · cases hx; exact hl
    · exact h m x hx

theorem plain_mStep {b : Build} {fm : Formats} {name : String} {dv : Value} {st : Config × World} (l : LayerSpec)
    (h : ∀ n x, st.1.getLayer n = some x → PlainLayer x) : ∀ n x, (mStep b fm name dv st l).1.getLayer n = some x → PlainLayer x := by
  unfold mStep
  cases chosen st.2 (layerCandidates b st.2 name l) with
  | none => exact h
  | some p =>
    simp only [RegCall.apply, addFileLayer_eq]
    cases ho : (RegCall.file l.name p).offer b fm with
    | none => exact h
    | some e =>
      obtain ⟨cd, rfl, -⟩ := offer_file ho
      exact layers_push h (.inr ⟨_, _, rfl⟩)

/-- All layers of the macro, with what they ask. -/
def mAsks (b : Build) (fm : Formats) (name : String) (dv : Value) (st : Config × World) : List LayerSpec → List Ask
  | [] => []
  | l :: ls => startAsks b st.2 name l (mStep b fm name dv st l).1 ++ mAsks b fm name dv (mStep b fm name dv st l) ls

theorem macroLayersA_eq (b : Build) (fm : Formats) (name : String) (dv : Value) (ls : List LayerSpec) : ∀ st : Config × World,
    (∀ n x, st.1.getLayer n = some x → PlainLayer x) →
    macroLayersA b fm name dv st ls = ⟨mAsks b fm name dv st ls, .ok (ls.foldl (mStep b fm name dv) st)⟩ := by
  induction ls with
  | nil => intro st _; rfl
  | cons l ls ih =>
    intro st h
    have h' := plain_mStep (b := b) (fm := fm) (name := name) (dv := dv) l h
    rw [macroLayersA, macroLayerA_eq _ _ _ _ _ _ (h' _), Asking.bind]
    simp only [ih _ h', mAsks, List.foldl_cons]

theorem mAsks_append (b : Build) (fm : Formats) (name : String) (dv : Value) (ls : List LayerSpec) (l : LayerSpec) : ∀ st : Config × World,
    mAsks b fm name dv st (ls ++ [l]) = mAsks b fm name dv st ls ++
      startAsks b (ls.foldl (mStep b fm name dv) st).2 name l (mStep b fm name dv (ls.foldl (mStep b fm name dv) st) l).1 := by
  induction ls with
  | nil => intro st; simp [mAsks]
  | cons a ls ih => intro st; simp only [List.cons_append, mAsks, ih, List.foldl_cons, List.append_assoc]

theorem plain_default (dv : Value) : ∀ n x, (Config.new.addMemoryLayer "default" dv).getLayer n = some x → PlainLayer x :=
  layers_push (c := Config.new) (fun n x h => by cases h) (.inl ⟨dv, rfl⟩)

theorem createConfigA_eq (b : Build) (fm : Formats) (w : World) (args : MacroArgs) :
    (createConfigA b fm w args).out = createConfig b fm w args ∧
    ∃ dv, valueMapMacro args.default = some dv ∧
      (createConfigA b fm w args).asks = mAsks b fm args.fileName dv (Config.new.addMemoryLayer "default" dv, w) args.layers := by
  obtain ⟨dv, hdv, -⟩ := createConfig_eq b fm w args
  unfold createConfigA createConfig
  rw [hdv]
  simp only []
  rw [macroLayersA_eq _ _ _ _ _ _ (plain_default dv), macroLayers_eq]
  refine ⟨?_, dv, rfl, ?_⟩
  · cases args.env <;> rfl
  · cases args.env <;> simp [Asking.bind, Asking.pure]

theorem getLayer_push_env {c : Config} {n pre m : String} (h : (c.getLayer m).isSome = true) : (c.addEnvironmentLayer n pre).getLayer m = c.getLayer m := by
  unfold Config.addEnvironmentLayer Config.pushLayer Config.getLayer at *
  split
  · rfl
  · rename_i h'
    simp only []
    rw [hmGet_insert]
    split
    · rename_i h''; subst h''; exact absurd h h'
    · rfl

/-- The configuration that the macro gives has under the layer's name what it had before the environment was added, if the layer was added. -/
theorem initAsks_env (b : Build) (fm : Formats) (w : World) (l : LayerSpec) (st : Config × World) (p : OsStr) (env : Option String) :
    initAsks b w l ((RegCall.file l.name p).apply b fm st.1) p =
      initAsks b w l ((env.map fun pre => RegCall.environment "environment" pre).toList.foldl (RegCall.apply b fm) ((RegCall.file l.name p).apply b fm st.1)) p := by
  cases env with
  | none => rfl
  | some pre =>
    unfold initAsks
    by_cases hs : InEnabledFormat b p
    · have : (((RegCall.file l.name p).apply b fm st.1).getLayer l.name).isSome = true := by
        simp only [RegCall.apply, addFileLayer_eq]
        have hs := (supported_offer (fm := fm) (n := l.name)).2 hs
        cases ho : (RegCall.file l.name p).offer b fm with
        | none => rw [ho] at hs; cases hs
        | some e =>
          obtain ⟨cd, rfl, -⟩ := offer_file ho
          simp only [Config.pushLayer, Config.getLayer]
          split
          · assumption
          · simp only []; rw [hmGet_insert]; simp
      simp only [Option.map_some, Option.toList_some, List.foldl_cons, List.foldl_nil]
      have := getLayer_push_env (n := "environment") (pre := pre) this
      conv => rhs; rw [show RegCall.apply b fm ((RegCall.file l.name p).apply b fm st.1) (RegCall.environment "environment" pre) = ((RegCall.file l.name p).apply b fm st.1).addEnvironmentLayer "environment" pre from rfl, this]
    · simp [hs]

/-- **C136.** What `create_config!` asks, exactly: for each layer its directories, its search, its `init` part, in the world the layers before it left;
nothing for the defaults, nothing for the environment. Its result is the one of the model of the macro. -/
theorem C136_start (b : Build) (fm : Formats) (w : World) (args : MacroArgs) :
    (createConfigA b fm w args).out = createConfig b fm w args ∧
    (args.layers = [] → (createConfigA b fm w args).asks = []) ∧
    ∀ ls l c w1 c2 w2, args.layers = ls ++ [l] → createConfig b fm w { args with layers := ls } = .ok (c, w1) → createConfig b fm w args = .ok (c2, w2) →
      (createConfigA b fm w args).asks = (createConfigA b fm w { args with layers := ls }).asks ++ startAsks b w1 args.fileName l c2 := by
  obtain ⟨h1, dv, hdv, h2⟩ := createConfigA_eq b fm w args
  refine ⟨h1, fun h => by rw [h2, h]; rfl, fun ls l c w1 c2 w2 hl hc hc2 => ?_⟩
  obtain ⟨-, dv', hdv', h3⟩ := createConfigA_eq b fm w { args with layers := ls }
  have : dv' = dv := by have : valueMapMacro args.default = some dv' := hdv'; rw [hdv] at this; exact (Option.some.inj this).symm
  subst this
  obtain ⟨d1, e1, g1⟩ := createConfig_eq b fm w { args with layers := ls }
  obtain ⟨d2, e2, g2⟩ := createConfig_eq b fm w args
  have : d1 = dv' := by have : valueMapMacro args.default = some d1 := e1; rw [hdv] at this; exact (Option.some.inj this).symm
  subst this
  have : d2 = d1 := by rw [hdv] at e2; exact (Option.some.inj e2).symm
  subst this
  rw [hc] at g1
  rw [hc2, hl, List.foldl_append] at g2
  cases g1; cases g2
  rw [h2, h3, hl, mAsks_append]
  simp only []
  congr 1
  have hreg : register b fm [.memory "default" d2] = Config.new.addMemoryLayer "default" d2 := rfl
  rw [hreg]
  generalize ls.foldl (mStep b fm args.fileName d2) (Config.new.addMemoryLayer "default" d2, w) = st
  simp only [List.foldl_cons, List.foldl_nil]
  unfold startAsks mStep
  cases hch : chosen st.2 (layerCandidates b st.2 args.fileName l) with
  | none => rfl
  | some p => simp only [hch, takenAsks]; rw [← initAsks_env]

/-- A layer in memory, or one for a candidate. -/
def Known (b : Build) (w : World) (name : String) (all : List LayerSpec) (x : Layer) : Prop :=
  (∃ v, x = .memory v) ∨ ∃ cd p, x = .file (textHandler cd) p ∧ ∃ l ∈ all, p ∈ layerCandidates b w name l

theorem known_mStep {b : Build} {fm : Formats} {w : World} {name : String} {dv : Value} {all : List LayerSpec} {st : Config × World} {l : LayerSpec} (hl : l ∈ all)
    (hs : SameEnv w st.2) (h : ∀ n x, st.1.getLayer n = some x → Known b w name all x) :
    SameEnv w (mStep b fm name dv st l).2 ∧ ∀ n x, (mStep b fm name dv st l).1.getLayer n = some x → Known b w name all x := by
  unfold mStep
  cases hch : chosen st.2 (layerCandidates b st.2 name l) with
  | none => exact ⟨hs, h⟩
  | some p =>
    have hp : p ∈ layerCandidates b w name l := by rw [← hs.candidates b name l]; exact chosen_mem hch
    have hk : ∀ n x, ((RegCall.file l.name p).apply b fm st.1).getLayer n = some x → Known b w name all x := by
      simp only [RegCall.apply, addFileLayer_eq]
      cases ho : (RegCall.file l.name p).offer b fm with
      | none => exact h
      | some e =>
        obtain ⟨cd, rfl, -⟩ := offer_file ho
        exact layers_push h (.inr ⟨_, _, rfl, l, hl, hp⟩)
    refine ⟨?_, hk⟩
    rcases initLayer_cases st.2 ((RegCall.file l.name p).apply b fm st.1) ((RegCall.file l.name p).offer b fm).isSome p l dv with e | ⟨-, -, -, x, hx, e⟩
    · simp only []; rw [e]; exact hs
    · simp only []; rw [e]
      refine hs.trans ?_
      rcases hk _ _ hx with ⟨v, rfl⟩ | ⟨cd, q, rfl, -⟩
      · exact SameEnv.refl _
      · exact (C57_write cd st.2 q dv _ _ rfl).1.1

theorem looksAfter_nowrite (times : List OsStr → OsStr → Nat) (ps : List OsStr) : ∀ before, (looksAfter times before ps).filter isWrite = [] := by
  induction ps with
  | nil => intro _; rfl
  | cons p ps ih => intro before; rw [looksAfter, List.filter_append, ih, List.filter_replicate]; simp [isWrite]

theorem dirAsks_facts (w : World) (ds : List OSDirectory) : (ds.flatMap (dirAsks w)).length ≤ 2 * ds.length ∧
    (ds.flatMap (dirAsks w)).filter isWrite = [] ∧ ∀ a ∈ ds.flatMap (dirAsks w), a = .baseDirs ∨ a = .cwd := by
  induction ds with
  | nil => simp
  | cons d ds ih =>
    obtain ⟨h1, h2, h3⟩ := ih
    have hd : (dirAsks w d).length ≤ 2 ∧ (dirAsks w d).filter isWrite = [] ∧ ∀ a ∈ dirAsks w d, a = .baseDirs ∨ a = .cwd := by
      unfold dirAsks; split <;> simp [isWrite]
    rw [List.flatMap_cons]
    refine ⟨by rw [List.length_append, List.length_cons]; omega, by rw [List.filter_append, hd.2.1, h2]; rfl, fun a ha => ?_⟩
    rcases List.mem_append.1 ha with ha | ha
    · exact hd.2.2 a ha
    · exact h3 a ha

theorem startAsks_facts {b : Build} {w u : World} {name : String} {all : List LayerSpec} {l : LayerSpec} {c : Config} (hl : l ∈ all) (hs : SameEnv w u)
    (h : ∀ n x, c.getLayer n = some x → Known b w name all x) :
    (∀ a ∈ startAsks b u name l c, a = .baseDirs ∨ a = .cwd ∨ ∃ p, (a = .exists p ∨ a = .write p) ∧ ∃ l ∈ all, p ∈ layerCandidates b w name l) ∧
    ((startAsks b u name l c).filter isWrite).length ≤ (if l.init = some true then 1 else 0) ∧
    (startAsks b u name l c).length ≤ 2 * l.dirs.length + (layerCandidates b w name l).length + 4 := by
  obtain ⟨d1, d2, d3⟩ := dirAsks_facts u l.dirs
  have hc := hs.candidates b name l
  unfold startAsks
  rw [hc]
  have f1 : (firstLooks u true (layerCandidates b w name l)).length ≤ (layerCandidates b w name l).length + 2 :=
    le_trans (firstLooks_length u true _) (Nat.add_le_add_right (consulted_sublist u _).length_le 2)
  have f2 : (firstLooks u true (layerCandidates b w name l)).filter isWrite = [] := looksAfter_nowrite _ _ _
  have f3 : ∀ a ∈ firstLooks u true (layerCandidates b w name l), ∃ p ∈ layerCandidates b w name l, a = .exists p := by
    intro a ha
    obtain ⟨p, hp, e⟩ := (looksAfter_bound _ 2 (fun _ _ => twiceIf_le _) _ _).2 a ha
    exact ⟨p, (consulted_sublist u _).subset hp, e⟩
  generalize hi : takenAsks b u l c (chosen u (layerCandidates b w name l)) = ia
  have i : (∀ a ∈ ia, ∃ p, (a = .exists p ∨ a = .write p) ∧ ∃ l ∈ all, p ∈ layerCandidates b w name l) ∧ (ia.filter isWrite).length ≤ (if l.init = some true then 1 else 0) ∧ ia.length ≤ 2 := by
    subst hi
    cases hch : chosen u (layerCandidates b w name l) with
    | none => simp [takenAsks]
    | some p =>
      have hp := chosen_mem hch
      simp only [takenAsks, initAsks]
      split
      · split
        · rename_i h2
          split
          · rename_i hd q hq
            rcases h _ _ hq with ⟨v, e⟩ | ⟨cd, q', e, hcand⟩
            · cases e
            · cases e
              refine ⟨fun a ha => ?_, by simp only [if_pos h2.1]; exact le_refl 1, by simp⟩
              simp only [List.mem_cons, List.not_mem_nil, or_false] at ha
              rcases ha with rfl | rfl
              · exact ⟨p, .inl rfl, l, hl, hp⟩
              · exact ⟨q, .inr rfl, hcand⟩
          · refine ⟨fun a ha => ?_, by simp [isWrite], by simp⟩
            simp only [List.mem_cons, List.not_mem_nil, or_false] at ha
            subst ha; exact ⟨p, .inl rfl, l, hl, hp⟩
        · refine ⟨fun a ha => ?_, by simp [isWrite], by simp⟩
          simp only [List.mem_cons, List.not_mem_nil, or_false] at ha
          subst ha; exact ⟨p, .inl rfl, l, hl, hp⟩
      · simp
  refine ⟨fun a ha => ?_, ?_, ?_⟩
  · rcases List.mem_append.1 ha with ha | ha
    · rcases List.mem_append.1 ha with ha | ha
      · rcases d3 a ha with h | h
        · exact .inl h
        · exact .inr (.inl h)
      · obtain ⟨p, hp, e⟩ := f3 a ha
        exact .inr (.inr ⟨p, .inl e, l, hl, hp⟩)
    · exact .inr (.inr (i.1 a ha))
  · rw [List.filter_append, List.filter_append, d2, f2]; simpa using i.2.1
  · rw [List.length_append, List.length_append]
    have := i.2.2
    omega

theorem mAsks_facts (b : Build) (fm : Formats) (w : World) (name : String) (dv : Value) (all ls : List LayerSpec) : ∀ st : Config × World, (∀ l ∈ ls, l ∈ all) →
    SameEnv w st.2 → (∀ n x, st.1.getLayer n = some x → Known b w name all x) →
    (∀ a ∈ mAsks b fm name dv st ls, a = .baseDirs ∨ a = .cwd ∨ ∃ p, (a = .exists p ∨ a = .write p) ∧ ∃ l ∈ all, p ∈ layerCandidates b w name l) ∧
    ((mAsks b fm name dv st ls).filter isWrite).length ≤ (ls.filter fun l => l.init = some true).length ∧
    (mAsks b fm name dv st ls).length ≤ (ls.map fun l => 2 * l.dirs.length + (layerCandidates b w name l).length + 4).sum := by
  induction ls with
  | nil => intro st _ _ _; simp [mAsks]
  | cons l ls ih =>
    intro st ha hs h
    obtain ⟨k1, k2⟩ := known_mStep (fm := fm) (dv := dv) (ha l (by simp)) hs h
    obtain ⟨r1, r2, r3⟩ := ih _ (fun x hx => ha x (by simp [hx])) k1 k2
    obtain ⟨s1, s2, s3⟩ := startAsks_facts (l := l) (ha l (by simp)) hs k2
    rw [mAsks]
    refine ⟨fun a hm => ?_, ?_, ?_⟩
    · rcases List.mem_append.1 hm with hm | hm
      · exact s1 a hm
      · exact r1 a hm
    · rw [List.filter_append, List.length_append, List.filter_cons]
      by_cases hi : l.init = some true
      · rw [if_pos hi] at s2; rw [if_pos (by simpa using hi), List.length_cons]; omega
      · rw [if_neg hi] at s2; rw [if_neg (by simpa using hi)]; omega
    · rw [List.length_append, List.map_cons, List.sum_cons]; omega

theorem mAsks_quiet (b : Build) (fm : Formats) (w : World) (name : String) (dv : Value) (ls : List LayerSpec) : ∀ c : Config,
    (∀ l ∈ ls, l.init = some true → ∃ p ∈ layerCandidates b w name l, w.pathExists p = true) →
    mAsks b fm name dv (c, w) ls = ls.flatMap fun l =>
      l.dirs.flatMap (dirAsks w) ++ firstLooks w true (layerCandidates b w name l) ++
        match chosen w (layerCandidates b w name l) with
        | some p => if l.init.isSome = true ∧ InEnabledFormat b p then [.exists p] else []
        | none => [] := by
  induction ls with
  | nil => intro c _; rfl
  | cons l ls ih =>
    intro c hq
    have hex : ∀ p, chosen w (layerCandidates b w name l) = some p → l.init = some true → w.pathExists p = true := by
      intro p hp hi
      obtain ⟨q, hq1, hq2⟩ := hq l (by simp) hi
      cases he : w.pathExists p with
      | true => rfl
      | false => rw [(chosen_missing hp he).2 q hq1] at hq2; cases hq2
    have hw : (mStep b fm name dv (c, w) l).2 = w := by
      unfold mStep
      cases hch : chosen w (layerCandidates b w name l) with
      | none => rfl
      | some p =>
        simp only []
        rcases initLayer_cases w ((RegCall.file l.name p).apply b fm c) ((RegCall.file l.name p).offer b fm).isSome p l dv with e | ⟨e1, -, e2, -⟩
        · exact e
        · rw [hex p hch e1] at e2; cases e2
    rw [mAsks, List.flatMap_cons]
    have := ih (mStep b fm name dv (c, w) l).1 (fun x hx => hq x (by simp [hx]))
    rw [show mStep b fm name dv (c, w) l = ((mStep b fm name dv (c, w) l).1, w) from Prod.ext rfl hw, this]
    congr 1
    unfold startAsks
    congr 1
    simp only []
    cases hch : chosen w (layerCandidates b w name l) with
    | none => rfl
    | some p =>
      simp only [takenAsks, initAsks]
      split
      · rw [if_neg]
        rintro ⟨e1, e2⟩
        rw [hex p hch e1] at e2; cases e2
      · rfl

/-- **C136.** `create_config!` reads no file, no variable of the environment: it asks for directories, whether candidates of its layers exist, and for a write
for each layer marked `init: true` at most. -/
theorem C136_start_only (b : Build) (fm : Formats) (w : World) (args : MacroArgs) :
    (∀ a ∈ (createConfigA b fm w args).asks, a = .baseDirs ∨ a = .cwd ∨
      ∃ p, (a = .exists p ∨ a = .write p) ∧ ∃ l ∈ args.layers, p ∈ layerCandidates b w args.fileName l) ∧
    ((createConfigA b fm w args).asks.filter isWrite).length ≤
      (args.layers.filter fun l => l.init = some true).length ∧
    (createConfigA b fm w args).asks.length ≤
      (args.layers.map fun l => 2 * l.dirs.length + (layerCandidates b w args.fileName l).length + 4).sum := by
  obtain ⟨-, dv, -, h⟩ := createConfigA_eq b fm w args
  rw [h]
  exact mAsks_facts b fm w args.fileName dv args.layers args.layers _ (fun _ h => h) (SameEnv.refl w)
    (layers_push (c := Config.new) (fun n x h => by cases h) (.inl ⟨dv, rfl⟩))

/-- **C136.** A start in which nothing is to be made (each layer finds a file, or is not marked `init: true`): exactly this is asked. -/
theorem C136_start_quiet (b : Build) (fm : Formats) (w : World) (args : MacroArgs)
    (hq : ∀ l ∈ args.layers, l.init = some true → ∃ p ∈ layerCandidates b w args.fileName l, w.pathExists p = true) :
    (createConfigA b fm w args).asks = args.layers.flatMap fun l =>
      l.dirs.flatMap (dirAsks w) ++ firstLooks w true (layerCandidates b w args.fileName l) ++
        match chosen w (layerCandidates b w args.fileName l) with
        | some p => if l.init.isSome = true ∧ InEnabledFormat b p then [.exists p] else []
        | none => [] := by
  obtain ⟨-, dv, -, h⟩ := createConfigA_eq b fm w args
  rw [h]
  exact mAsks_quiet b fm w args.fileName dv args.layers _ hq

/-! ## Examples -/

/-- Nothing at `/a/f.toml`, `/a/f.json` or `/b/f.json`, a file at `/b/f.toml`. -/
def exAsksWorld : World :=
  { locate := fun p => if p = os "/b/f.toml" then 1 else 2, disk := fun s => if s = 1 then .file (utf8 "hi") none none else .absent none,
    room := fun _ => none, env := [], baseDirs := none, cwd := none }
def exAsksFinder : FileFinder := ((((FileFinder.new "f").withToml).withJson).withFolder (os "/a")).withFolder (os "/b")
theorem exAsks_ready : Ready exAsksFinder := ⟨by decide, by decide, by decide⟩

/-- The very first candidate twice (it may be what is returned), then once each, and the one that is there twice; `/b/f.json` is not looked at. -/
example : (findFirstA exB1 exAsksWorld exAsksFinder true).asks =
    [.exists (os "/a/f.toml"), .exists (os "/a/f.toml"), .exists (os "/a/f.json"), .exists (os "/b/f.toml"), .exists (os "/b/f.toml")] := by
  rw [(C136_find_first _ _ _ _).2 exAsks_ready]; decide
example : (findLastA exB1 exAsksWorld exAsksFinder false).asks =
    [.exists (os "/a/f.toml"), .exists (os "/a/f.json"), .exists (os "/b/f.toml"), .exists (os "/b/f.toml"), .exists (os "/b/f.json")] := by
  rw [(C136_find_last _ _ _ _).2 exAsks_ready]; decide
example : (findAllA exB1 exAsksWorld exAsksFinder true).asks =
    [.exists (os "/a/f.toml"), .exists (os "/a/f.json"), .exists (os "/b/f.toml"), .exists (os "/b/f.json")] := by
  rw [((C136_find_all _ _ _ _).2 exAsks_ready).2 (by decide)]; decide
example : (findAllOrFirstA exB1 exAsksWorld exAsksFinder).asks =
    [.exists (os "/a/f.toml"), .exists (os "/a/f.toml"), .exists (os "/a/f.json"), .exists (os "/b/f.toml"), .exists (os "/b/f.toml"), .exists (os "/b/f.json")] := by
  rw [((C136_find_all_or_first _ _ _).2 exAsks_ready).2 (by decide)]; decide
example : (findFirstA exB1 exAsksWorld exAsksFinder true).asks.length ≤ 3 + 2 := (C136_bound exB1 exAsksWorld exAsksFinder true).2.1 exAsks_ready
example : (findFirstA exB1 exAsksWorld (FileFinder.new "f") true).asks = [] := ((C136_bound exB1 exAsksWorld _ true).2.2 (.inl rfl)).1

/-- Four layers: one in memory, a good file, a file that cannot be parsed, the environment. Without `skip` the environment is not asked. -/
example : ((register exB1 exFormats exCalls).buildValueA exDisk true).1 =
    [.exists (os "/a.toml"), .read (os "/a.toml"), .exists (os "/b.toml"), .read (os "/b.toml"), .vars] ∧
    ((register exB1 exFormats exCalls).buildValueA exDisk false).1 =
    [.exists (os "/a.toml"), .read (os "/a.toml"), .exists (os "/b.toml"), .read (os "/b.toml")] := by
  rw [(C136_build _ _ _ _ _).2, (C136_build _ _ _ _ _).2]
  constructor <;> rfl
example : ((register exB1 exFormats exCalls).buildValueA exDisk true).1.count (.read (os "/a.toml")) ≤ 1 :=
  (C136_build_bound exB1 exFormats exCalls (by intro c hc; simp [exCalls] at hc; rcases hc with rfl | rfl | rfl | rfl | rfl | rfl <;> trivial) exDisk true).2.2 _
example : ((Layer.file (textHandler exCodec) (os "/a.toml")).writeValueA exDisk .none).1 = [.write (os "/a.toml")] :=
  (C136_write exDisk .none _).2.2.2 _ _ rfl

/-- A start that makes the file of the layer `two`. -/
example : (createConfigA exB1 exFormats exMacroWorld exArgs).asks =
    [.baseDirs, .baseDirs, .exists (os "/a/f.toml"), .exists (os "/a/f.toml"),
     .baseDirs, .exists (os "/b/f.toml"), .exists (os "/b/f.toml"), .exists (os "/b/f.toml"), .write (os "/b/f.toml")] := by
  obtain ⟨c2, w2, h2⟩ : ∃ c w', createConfig exB1 exFormats exMacroWorld exArgs = .ok (c, w') := ⟨_, _, rfl⟩
  rw [(C136_start exB1 exFormats exMacroWorld exArgs).2.2 [⟨"one", [.path "/a", .path "/b"], none⟩] ⟨"two", [.path "/b"], some true⟩ _ _ c2 w2 rfl rfl h2]
  cases h2
  rw [(C136_start exB1 exFormats exMacroWorld { exArgs with layers := [⟨"one", [.path "/a", .path "/b"], none⟩] }).2.2 [] ⟨"one", [.path "/a", .path "/b"], none⟩ _ _ _ _ rfl rfl rfl,
    (C136_start exB1 exFormats exMacroWorld { exArgs with layers := [] }).2.1 rfl]
  rfl
example : (createConfigA exB1 exFormats exMacroWorld exArgs).asks.length ≤ 17 := (C136_start_only exB1 exFormats exMacroWorld exArgs).2.2
/-- A start that makes nothing, though `init: true` is there: the file exists. The working directory is asked for as well. -/
example : (createConfigA exB1 exFormats exMacroWorld { exArgs with layers := [⟨"one", [.workingDirectory, .path "/a"], some true⟩] }).asks =
    [.baseDirs, .cwd, .baseDirs, .exists (os "/a/f.toml"), .exists (os "/a/f.toml"), .exists (os "/a/f.toml")] := by
  rw [C136_start_quiet _ _ _ _ (by intro l hl _; simp at hl; subst hl; exact ⟨os "/a/f.toml", by decide, rfl⟩)]
  rfl

end Verif.Props
