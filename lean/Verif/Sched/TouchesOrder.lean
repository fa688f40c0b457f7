import Verif.Sched.Touches

/-!
# The caches after the same queries, whatever the order of the sets in the graph
-/

namespace Trane.UnitScorer
open Trane.Library (Both)

variable {ι R T W : Type} [DecidableEq ι] [Field R] [LinearOrder R]

/-- The two caches hold the same entries. -/
structure SameCaches (c c' : Caches ι R) : Prop where
  ex : ∀ u, c'.ex.find u = c.ex.find u
  les : ∀ u, c'.les.find u = c.les.find u
  cou : ∀ u, c'.cou.find u = c.cou.find u
  lesT : ∀ u, c'.lesT.find u = c.lesT.find u
  couT : ∀ u, c'.couT.find u = c.couT.find u

namespace SameCaches

theorem refl (c : Caches ι R) : SameCaches c c := ⟨fun _ => rfl, fun _ => rfl, fun _ => rfl, fun _ => rfl, fun _ => rfl⟩

theorem symm {c c' : Caches ι R} (h : SameCaches c c') : SameCaches c' c :=
  ⟨fun u => (h.ex u).symm, fun u => (h.les u).symm, fun u => (h.cou u).symm, fun u => (h.lesT u).symm, fun u => (h.couT u).symm⟩

theorem trans {c c' d : Caches ι R} (h : SameCaches c c') (k : SameCaches c' d) : SameCaches c d :=
  ⟨fun u => (k.ex u).trans (h.ex u), fun u => (k.les u).trans (h.les u), fun u => (k.cou u).trans (h.cou u),
    fun u => (k.lesT u).trans (h.lesT u), fun u => (k.couT u).trans (h.couT u)⟩

theorem has {c c' : Caches ι R} (h : SameCaches c c') (k : Key ι) : c'.has k ↔ c.has k := by
  cases k <;> simp only [Caches.has, h.ex, h.les, h.cou, h.lesT, h.couT]

theorem over {c c' : Caches ι R} (h : SameCaches c c') (w : World ι R T W) : over w c' = over w c := by
  unfold UnitScorer.over
  simp only [h.ex]

theorem lessonO {c c' : Caches ι R} (h : SameCaches c c') (w : World ι R T W) : lessonO w c' = lessonO w c := by
  funext f n l
  unfold UnitScorer.lessonO
  rw [h.les, h.over]

theorem courseO {c c' : Caches ι R} (h : SameCaches c c') (w : World ι R T W) : courseO w c' = courseO w c := by
  funext f n l
  unfold UnitScorer.courseO
  rw [h.cou, h.over, h.lessonO]

theorem scoreO {c c' : Caches ι R} (h : SameCaches c c') (w : World ι R T W) : scoreO w c' = scoreO w c := by
  funext n
  induction n with
  | zero => rfl
  | succ n ih =>
    funext u
    unfold UnitScorer.scoreO
    rw [h.over, h.lessonO, h.courseO, ih]

theorem lessonTrialsO {c c' : Caches ι R} (h : SameCaches c c') (w : World ι R T W) : lessonTrialsO w c' = lessonTrialsO w c := by
  funext l
  unfold UnitScorer.lessonTrialsO
  rw [h.lesT, h.over]

theorem courseTrialsO {c c' : Caches ι R} (h : SameCaches c c') (w : World ι R T W) : courseTrialsO w c' = courseTrialsO w c := by
  funext n u
  unfold UnitScorer.courseTrialsO
  rw [h.couT, h.over, h.scoreO, h.lessonTrialsO]

end SameCaches

theorem SameSets.symm {g g' : Graph ι} (h : SameSets g g') : SameSets g' g := by
  have b : ∀ {o o' : Option (List ι)}, Both List.Perm o o' → Both List.Perm o' o := by
    intro o o' hb
    rcases both_cases hb with ⟨rfl, rfl⟩ | ⟨a, a', rfl, rfl, hp⟩
    · trivial
    · exact hp.symm
  exact ⟨fun u => (h.type u).symm, fun u => (h.exerciseLesson u).symm, fun u => (h.lessonCourse u).symm,
    fun u => b (h.lessonExercises u), fun u => b (h.courseLessons u), fun u => b (h.supersededBy u)⟩

/-- The same query, up to the order of the ids. -/
inductive Query.Same : Query ι → Query ι → Prop
  | rfl (q) : Query.Same q q
  | sup (u) {ids ids' : List ι} : (∀ x, x ∈ ids ↔ x ∈ ids') → Query.Same (.sup u ids) (.sup u ids')
  | replace {ids ids' : List ι} : (∀ x, x ∈ ids ↔ x ∈ ids') → Query.Same (.replace ids) (.replace ids')

theorem both_some {β δ : Type} {S : β → δ → Prop} {o : Option β} {o' : Option δ} (h : Both S o o') {a : β} (e : o = some a) :
    ∃ a', o' = some a' ∧ S a a' := by
  rcases both_cases h with ⟨h1, h2⟩ | ⟨x, y, h1, h2, h3⟩
  · rw [h1] at e; cases e
  · rw [h1] at e; cases e; exact ⟨y, h2, h3⟩

section
variable {w : World ι R T W} {g : Graph ι} {c c' : Caches ι R}

theorem same_isSup (h : SameSets w.graph g) (hc : SameCaches c c') (u : ι) (b : Bool) (hs : IsSup w c u b) : IsSup (w.on g) c' u b := by
  obtain ⟨n, hn⟩ := hs
  refine ⟨n, ?_⟩
  have e : scoreO (w.on g) c n = scoreO w c n := funext (on_scoreO h c n)
  rw [hc.over, hc.scoreO, over_on, e, on_checkP (w := over w c) h]
  exact hn

theorem same_touches (h : SameSets w.graph g) (hc : SameCaches c c') {q : Query ι} {k : Key ι} (ht : Touches w c q k) :
    ∀ {q'}, Query.Same q q' → Touches (w.on g) c' q' k := by
  have es : ∀ n, scoreO (w.on g) c' n = scoreO w c n := fun n => by
    rw [hc.scoreO]; exact funext (on_scoreO h c n)
  have eo : over (w.on g) c' = (over w c).on g := by rw [hc.over, over_on]
  have sup := same_isSup h hc
  induction ht with
  | ex a => intro q' hq; cases hq; exact .ex (by rw [hc.ex]; exact a)
  | scoreEx a _ ih => intro q' hq; cases hq; exact .scoreEx ((h.type _).trans a) (ih (.rfl _))
  | scoreLes a _ ih => intro q' hq; cases hq; exact .scoreLes ((h.type _).trans a) (ih (.rfl _))
  | scoreCou a _ ih => intro q' hq; cases hq; exact .scoreCou ((h.type _).trans a) (ih (.rfl _))
  | supSeen a b _ ih =>
    intro q' hq
    have hb := (on_allValid (w := w) h _).mem_iff.1 b
    cases hq with
    | rfl => exact .supSeen a hb (ih (.rfl _))
    | sup _ hm =>
      refine .supSeen ?_ hb (ih (.rfl _))
      obtain ⟨x, hx⟩ := List.exists_mem_of_ne_nil _ a
      exact List.ne_nil_of_mem ((hm x).1 hx)
  | @supScore u _ _ _ a b _ ih =>
    intro q' hq
    have ha : seenP (over (w.on g) c') u = true := by rw [eo, on_seenP (w := over w c) h]; exact a
    cases hq with
    | rfl => exact .supScore ha b (ih (.rfl _))
    | sup _ hm => exact .supScore ha ((hm _).1 b) (ih (.rfl _))
  | replaceSup a b _ ih =>
    intro q' hq
    obtain ⟨s', hs', hp⟩ := both_some (h.supersededBy _) b
    have := ih (.sup _ fun x => hp.mem_iff)
    cases hq with
    | rfl => exact .replaceSup a hs' this
    | replace hm => exact .replaceSup ((hm _).1 a) hs' this
  | @replaceRec _ id _ _ a b d _ ih =>
    intro q' hq
    obtain ⟨s', hs', hp⟩ := both_some (h.supersededBy _) b
    obtain ⟨n, hn⟩ := d
    have := ih (.replace fun x => hp.mem_iff)
    have hd : ∃ n, supersededP (over (w.on g) c') (scoreO (w.on g) c' n) id s' = some true :=
      ⟨n, by rw [es, eo, on_supersededP (w := over w c) h _ _ (fun x => hp.mem_iff)]; exact hn⟩
    cases hq with
    | rfl => exact .replaceRec a hs' hd this
    | replace hm => exact .replaceRec ((hm _).1 a) hs' hd this
  | checkReplace a _ ih =>
    intro q' hq
    cases hq
    obtain ⟨s', hs', hp⟩ := both_some (h.supersededBy _) a
    exact .checkReplace hs' (ih (.replace fun x => hp.mem_iff))
  | checkSup a b _ ih =>
    intro q' hq
    cases hq
    obtain ⟨s', hs', hp⟩ := both_some (h.supersededBy _) a
    obtain ⟨n, hn⟩ := b
    obtain ⟨r, hr, hm⟩ := both_some (on_replaceP (w := over w c) h (scoreO w c n) n (fun x => hp.mem_iff)) hn
    exact .checkSup hs' ⟨n, by rw [es, eo]; exact hr⟩ (ih (.sup _ hm))
  | les a => intro q' hq; cases hq; exact .les (by rw [hc.les]; exact a)
  | lesCheck a b _ ih => intro q' hq; cases hq; exact .lesCheck (by rw [hc.les]; exact a) b (ih (.rfl _))
  | lesEx a b d e f k _ ih =>
    intro q' hq; cases hq
    obtain ⟨s', hs', hp⟩ := both_some (h.lessonExercises _) e
    exact .lesEx (by rw [hc.les]; exact a) b (sup _ _ d) hs' (hp.mem_iff.1 f) k (ih (.rfl _))
  | cou a b =>
    intro q' hq; cases hq
    refine .cou (by rw [hc.cou]; exact a) ?_
    rcases b with b | b | b | ⟨n, v, hv⟩
    · exact .inl b
    · exact .inr (.inl (sup _ _ b))
    · refine .inr (.inr (.inl ?_))
      rcases both_cases (h.courseLessons _) with ⟨_, h2⟩ | ⟨x, y, h1, _⟩
      · exact h2
      · rw [h1] at b; cases b
    · refine .inr (.inr (.inr ⟨n, v, ?_⟩))
      rw [es, hc.courseO, on_courseO h]; exact hv
  | couCheck a b _ ih => intro q' hq; cases hq; exact .couCheck (by rw [hc.cou]; exact a) b (ih (.rfl _))
  | couLes a b d e f _ ih =>
    intro q' hq; cases hq
    obtain ⟨s', hs', hp⟩ := both_some (h.courseLessons _) e
    exact .couLes (by rw [hc.cou]; exact a) b (sup _ _ d) hs' (hp.mem_iff.1 f) (ih (.rfl _))
  | lesT a b =>
    intro q' hq; cases hq
    obtain ⟨s', hs', hp⟩ := both_some (h.lessonExercises _) b
    exact .lesT (by rw [hc.lesT]; exact a) hs'
  | lesTEx a b d e _ ih =>
    intro q' hq; cases hq
    obtain ⟨s', hs', hp⟩ := both_some (h.lessonExercises _) b
    exact .lesTEx (by rw [hc.lesT]; exact a) hs' (hp.mem_iff.1 d) e (ih (.rfl _))
  | couT a => intro q' hq; cases hq; exact .couT (by rw [hc.couT]; exact a)
  | couTCheck a b _ ih =>
    intro q' hq; cases hq
    refine .couTCheck (by rw [hc.couT]; exact a) ?_ (ih (.rfl _))
    rcases both_cases (h.courseLessons _) with ⟨h1, h2⟩ | ⟨x, y, h1, h2, hp⟩
    · rw [h1] at b; simp at b
    · rw [h1] at b; show _ ∈ (g.getCourseLessons _).getD []; rw [h2]; exact hp.mem_iff.1 b
  | couTLes a b d e _ ih =>
    intro q' hq; cases hq
    refine .couTLes (by rw [hc.couT]; exact a) ?_ d (sup _ _ e) (ih (.rfl _))
    rcases both_cases (h.courseLessons _) with ⟨h1, h2⟩ | ⟨x, y, h1, h2, hp⟩
    · rw [h1] at b; simp at b
    · rw [h1] at b; show _ ∈ (g.getCourseLessons _).getD []; rw [h2]; exact hp.mem_iff.1 b

theorem same_touches_iff (h : SameSets w.graph g) (hc : SameCaches c c') (q : Query ι) (k : Key ι) :
    Touches (w.on g) c' q k ↔ Touches w c q k :=
  ⟨fun ht => same_touches (w := w.on g) (g := w.graph) h.symm hc.symm ht (.rfl _), fun ht => same_touches h hc ht (.rfl _)⟩

/-- What two caches hold that were grown from the same entries is the same where both hold something. -/
theorem same_grown (h : SameSets w.graph g) (hc : SameCaches c c') {d d' : Caches ι R} (hd : Grown w c d)
    (hd' : Grown (w.on g) c' d') (hk : ∀ k, d'.has k ↔ d.has k) : SameCaches d d' := by
  have es : ∀ n, scoreO (w.on g) c' n = scoreO w c n := fun n => by
    rw [hc.scoreO]; exact funext (on_scoreO h c n)
  have key : ∀ {β : Type} (o o' : Option β), (o' ≠ none ↔ o ≠ none) → (∀ a a', o = some a → o' = some a' → a' = a) → o' = o := by
    intro β o o' h1 h2
    cases o with
    | none => by_contra hn; exact (h1.1 hn) rfl
    | some a =>
      cases o' with
      | none => exact absurd rfl (h1.2 (by simp))
      | some a' => rw [h2 a a' rfl rfl]
  refine ⟨fun u => ?_, fun u => ?_, fun u => ?_, fun u => ?_, fun u => ?_⟩
  · refine key _ _ (hk (.ex u)) (fun a a' h1 h2 => ?_)
    rw [hd.ex u a h1, hd'.ex u a' h2, hc.over, over_on, on_exRec (w := over w c) h]
  · refine key _ _ (hk (.les u)) (fun a a' h1 h2 => ?_)
    obtain ⟨n, hn⟩ := hd.les u a h1
    obtain ⟨n', hn'⟩ := hd'.les u a' h2
    rw [es, hc.lessonO, on_lessonO h] at hn'
    exact mono_unique (omono_lesson w c u) hn' hn
  · refine key _ _ (hk (.cou u)) (fun a a' h1 h2 => ?_)
    obtain ⟨n, hn⟩ := hd.cou u a h1
    obtain ⟨n', hn'⟩ := hd'.cou u a' h2
    rw [es, hc.courseO, on_courseO h] at hn'
    exact mono_unique (omono_course w c u) hn' hn
  · refine key _ _ (hk (.lesT u)) (fun a a' h1 h2 => ?_)
    rw [hd.lesT u a h1, hd'.lesT u a' h2, hc.lessonTrialsO]
    unfold lessonTrialsO
    rw [over_on, on_lessonTrialsP (w := over w c) h]
  · refine key _ _ (hk (.couT u)) (fun a a' h1 h2 => ?_)
    obtain ⟨n, hn⟩ := hd.couT u a h1
    obtain ⟨n', hn'⟩ := hd'.couT u a' h2
    rw [hc.courseTrialsO, on_courseTrialsO h] at hn'
    exact mono_unique (omono_courseTrials w c u) hn' hn

/-- The entries after a query with an answer: those from before and those it adds. -/
structure Fills (w : World ι R T W) (c0 : Caches ι R) (F : Key ι → Prop) (c : Caches ι R) : Prop where
  grown : Grown w c0 c
  whole : Whole w c0 c
  has : ∀ k, c.has k ↔ c0.has k ∨ F k

theorem fills_refl (w : World ι R T W) (c : Caches ι R) : Fills w c (fun _ => False) c :=
  ⟨grown_refl w c, whole_refl, by simp⟩

theorem fills_step {α : Type} {m : M ι R α} {p : Option α} {q : Nat → Option α} {F G : Key ι → Prop} {c0 c c' : Caches ι R}
    {a : α} (hc : Fills w c0 F c) (hm : Adds w c0 m G) (hG : Hered w c0 G) (ha : Agrees w c0 m p q) (e : m c = some (a, c')) :
    Fills w c0 (fun k => F k ∨ G k) c' := by
  have hk := hm c hc.grown hc.whole a c' e
  exact ⟨(ha.snd c a c' hc.grown e).1, whole_adds hG hc.whole hk, fun k => by rw [hk, hc.has, or_assoc]⟩

theorem same_fills (h : SameSets w.graph g) (hc : SameCaches c c') {F F' : Key ι → Prop} (hF : ∀ k, F' k ↔ F k)
    {d d' : Caches ι R} (hd : Fills w c F d) (hd' : Fills (w.on g) c' F' d') : SameCaches d d' :=
  same_grown h hc hd.grown hd'.grown (fun k => by rw [hd.has, hd'.has, hc.has, hF])

/-! ### Forgetting entries -/

/-- The exercises whose scores are forgotten with those of `u`. -/
def exDropped (g : Graph ι) (u : ι) : List ι :=
  match g.getUnitType u with
  | some .lesson => u :: (g.getLessonExercises u).getD []
  | some .course => u :: ((g.getCourseLessons u).getD []).flatMap (fun l => (g.getLessonExercises l).getD [])
  | _ => [u]

/-- The lessons whose scores are forgotten with those of `u`. -/
def lesDropped (g : Graph ι) (u : ι) : List ι :=
  match g.getUnitType u with
  | some .exercise => u :: (g.getExerciseLesson u).toList
  | some .course => u :: (g.getCourseLessons u).getD []
  | _ => [u]

/-- The courses whose scores are forgotten with those of `u`. -/
def couDropped (g : Graph ι) (u : ι) : List ι :=
  match g.getUnitType u with
  | some .exercise => u :: ((g.getExerciseLesson u).bind g.getLessonCourse).toList
  | some .lesson => u :: (g.getLessonCourse u).toList
  | _ => [u]

theorem find_dropAll {ν : Type} (m : AMap ι ν) (ks : List ι) (k : ι) : (delAll m ks).find k = if k ∈ ks then none else m.find k := by
  unfold delAll
  induction ks generalizing m with
  | nil => simp
  | cons x ks ih =>
    rw [List.foldl_cons, ih, AMap.find_del]
    by_cases h1 : k ∈ ks <;> by_cases h2 : x = k
    · simp [h1]
    · simp [h1]
    · subst h2; simp
    · simp [h1, h2, Ne.symm h2]

theorem invalidate_find (g : Graph ι) (c : Caches ι R) (u k : ι) :
    (invalidate g c u).ex.find k = (if k ∈ exDropped g u then none else c.ex.find k) ∧
    (invalidate g c u).les.find k = (if k ∈ lesDropped g u then none else c.les.find k) ∧
    (invalidate g c u).cou.find k = (if k ∈ couDropped g u then none else c.cou.find k) ∧
    (invalidate g c u).lesT.find k = (if k ∈ lesDropped g u then none else c.lesT.find k) ∧
    (invalidate g c u).couT.find k = (if k ∈ couDropped g u then none else c.couT.find k) := by
  have one : ∀ {ν : Type} (m : AMap ι ν) (x : ι), (m.del x).find k = if k ∈ [x] then none else m.find k := by
    intro ν m x; rw [AMap.find_del]; simp [eq_comm]
  have two : ∀ {ν : Type} (m : AMap ι ν) (x y : ι), ((m.del x).del y).find k = if k ∈ [x, y] then none else m.find k := by
    intro ν m x y
    rw [AMap.find_del, AMap.find_del]
    by_cases h1 : k = x <;> by_cases h2 : k = y <;> simp_all [eq_comm]
  have many : ∀ {ν : Type} (m : AMap ι ν) (x : ι) (ks : List ι), (delAll (m.del x) ks).find k = if k ∈ x :: ks then none else m.find k := by
    intro ν m x ks
    rw [find_dropAll, AMap.find_del]
    by_cases h1 : k = x <;> by_cases h2 : k ∈ ks <;> simp_all [eq_comm]
  unfold invalidate exDropped lesDropped couDropped
  cases hT : g.getUnitType u with
  | none => refine ⟨?_, ?_, ?_, ?_, ?_⟩ <;> simp only [one] <;> split_ifs <;> simp_all
  | some ty =>
    cases ty with
    | exercise =>
      cases hL : g.getExerciseLesson u with
      | none => refine ⟨?_, ?_, ?_, ?_, ?_⟩ <;> simp only [one, Option.toList_none, Option.bind_none] <;> split_ifs <;> simp_all
      | some l =>
        cases hC : g.getLessonCourse l with
        | none => refine ⟨?_, ?_, ?_, ?_, ?_⟩ <;> simp only [hC, one, two, Option.toList_none, Option.toList_some, Option.bind_some] <;> split_ifs <;> simp_all
        | some co => refine ⟨?_, ?_, ?_, ?_, ?_⟩ <;> simp only [hC, one, two, Option.toList_some, Option.bind_some] <;> split_ifs <;> simp_all
    | lesson =>
      cases hC : g.getLessonCourse u with
      | none => refine ⟨?_, ?_, ?_, ?_, ?_⟩ <;> simp only [one, many, Option.toList_none] <;> split_ifs <;> simp_all
      | some co => refine ⟨?_, ?_, ?_, ?_, ?_⟩ <;> simp only [one, two, many, Option.toList_some] <;> split_ifs <;> simp_all
    | course => refine ⟨?_, ?_, ?_, ?_, ?_⟩ <;> simp only [one, many] <;> split_ifs <;> simp_all

omit [DecidableEq ι] in
theorem both_mem {o o' : Option (List ι)} (hb : Both List.Perm o o') (x : ι) : x ∈ o'.getD [] ↔ x ∈ o.getD [] := by
  rcases both_cases hb with ⟨rfl, rfl⟩ | ⟨a, b, rfl, rfl, hp⟩
  · rfl
  · exact hp.mem_iff.symm

section
variable {g g' : Graph ι} (h : SameSets g g')
include h

theorem same_dropped (u k : ι) : (k ∈ exDropped g' u ↔ k ∈ exDropped g u) ∧ (k ∈ lesDropped g' u ↔ k ∈ lesDropped g u) ∧
    (k ∈ couDropped g' u ↔ k ∈ couDropped g u) := by
  unfold exDropped lesDropped couDropped
  have hl : g'.getLessonCourse = g.getLessonCourse := funext h.lessonCourse
  rw [h.type, h.exerciseLesson, hl]
  have he := fun l => both_mem (h.lessonExercises l)
  have hcl := both_mem (h.courseLessons u)
  cases g.getUnitType u with
  | none => simp
  | some ty =>
    cases ty with
    | exercise => simp
    | lesson => simp only [List.mem_cons, he, and_self]
    | course => simp only [List.mem_cons, List.mem_flatMap, he, hcl, and_self]

/-- Forgetting the scores of the same units, in any order and any number of times, leaves the same entries. -/
theorem same_invalidations {c c' : Caches ι R} (hc : SameCaches c c') {us us' : List ι} (hu : ∀ x, x ∈ us' ↔ x ∈ us) :
    SameCaches (us.foldl (invalidate g) c) (us'.foldl (invalidate g') c') := by
  have key : ∀ (g : Graph ι) (us : List ι) (c : Caches ι R) (k : ι),
      ((us.foldl (invalidate g) c).ex.find k = if ∃ u ∈ us, k ∈ exDropped g u then none else c.ex.find k) ∧
      ((us.foldl (invalidate g) c).les.find k = if ∃ u ∈ us, k ∈ lesDropped g u then none else c.les.find k) ∧
      ((us.foldl (invalidate g) c).cou.find k = if ∃ u ∈ us, k ∈ couDropped g u then none else c.cou.find k) ∧
      ((us.foldl (invalidate g) c).lesT.find k = if ∃ u ∈ us, k ∈ lesDropped g u then none else c.lesT.find k) ∧
      ((us.foldl (invalidate g) c).couT.find k = if ∃ u ∈ us, k ∈ couDropped g u then none else c.couT.find k) := by
    intro g us
    induction us with
    | nil => intro c k; simp
    | cons u us ih =>
      intro c k
      obtain ⟨a1, a2, a3, a4, a5⟩ := ih (invalidate g c u) k
      obtain ⟨b1, b2, b3, b4, b5⟩ := invalidate_find g c u k
      rw [List.foldl_cons, a1, a2, a3, a4, a5, b1, b2, b3, b4, b5]
      simp only [List.exists_mem_cons_iff]
      have lem : ∀ {ν : Type} (a b : Prop) [Decidable a] [Decidable b] [Decidable (b ∨ a)] (o : Option ν),
          (if a then none else if b then none else o) = if b ∨ a then none else o := by
        intro ν a b _ _ _ o
        by_cases ha : a <;> by_cases hb : b <;> simp [ha, hb]
      exact ⟨lem _ _ _, lem _ _ _, lem _ _ _, lem _ _ _, lem _ _ _⟩
  have hd := same_dropped h
  refine ⟨fun k => ?_, fun k => ?_, fun k => ?_, fun k => ?_, fun k => ?_⟩
  · rw [(key g us c k).1, (key g' us' c' k).1, hc.ex]; simp only [hu, (hd _ k).1]
  · rw [(key g us c k).2.1, (key g' us' c' k).2.1, hc.les]; simp only [hu, (hd _ k).2.1]
  · rw [(key g us c k).2.2.1, (key g' us' c' k).2.2.1, hc.cou]; simp only [hu, (hd _ k).2.2]
  · rw [(key g us c k).2.2.2.1, (key g' us' c' k).2.2.2.1, hc.lesT]; simp only [hu, (hd _ k).2.1]
  · rw [(key g us c k).2.2.2.2, (key g' us' c' k).2.2.2.2, hc.couT]; simp only [hu, (hd _ k).2.2]

theorem same_invalidate {c c' : Caches ι R} (hc : SameCaches c c') (u : ι) : SameCaches (invalidate g c u) (invalidate g' c' u) := by
  simpa using same_invalidations h hc (us := [u]) (us' := [u]) (by simp)

end

theorem find_filter_key {ν : Type} (p : ι → Bool) (m : AMap ι ν) (k : ι) :
    AMap.find (m.filter (fun e => !p e.1)) k = if p k then none else AMap.find m k := by
  induction m with
  | nil => simp [AMap.find]
  | cons e m ih =>
    obtain ⟨x, v⟩ := e
    by_cases hx : p x
    · have : List.filter (fun e : ι × ν => !p e.1) ((x, v) :: m) = List.filter (fun e => !p e.1) m := by simp [hx]
      rw [this, ih]
      by_cases hk : x = k
      · subst hk; simp [hx]
      · simp [AMap.find, hk]
    · have : List.filter (fun e : ι × ν => !p e.1) ((x, v) :: m) = (x, v) :: List.filter (fun e => !p e.1) m := by simp [hx]
      rw [this]
      by_cases hk : x = k
      · subst hk; simp [AMap.find, hx]
      · simp only [AMap.find, hk, if_false]; exact ih

theorem same_invalidatePrefix {c c' : Caches ι R} (hc : SameCaches c c') (p : ι → Bool) :
    SameCaches (invalidatePrefix p c) (invalidatePrefix p c') := by
  unfold invalidatePrefix
  refine ⟨fun k => ?_, fun k => ?_, fun k => ?_, fun k => ?_, fun k => ?_⟩ <;>
    simp only [find_filter_key, hc.ex, hc.les, hc.cou, hc.lesT, hc.couT]

end

end Trane.UnitScorer
