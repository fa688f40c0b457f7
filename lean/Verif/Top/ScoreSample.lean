import Verif.Top.ScoreProps

/-! The hypotheses of C85 hold of an object on a library with two lessons, one depending on the other. -/

namespace Trane.TopLevel
open Trane.Store
open Trane.UnitScorer (scoreC courseTrialsC lessonTrialsC checkC)
open Trane.Graph

/-- The request with the scores, trials and superseded units that the unit scorer answers. -/
def live (b : Base ℚ) (t : Top ℚ) (n : Nat) (q : Request) : Request :=
  let w := t.sys.world (t.config b)
  { q with env := { q.env with
      score := fun u => if t.graph.getUnitType u = none then none else (scoreC w n u t.caches).map Prod.fst
      trials := fun u =>
        match t.graph.getUnitType u with
        | some .course => ((courseTrialsC w n u t.caches).map Prod.fst).join
        | some .lesson => ((lessonTrialsC w u t.caches).map Prod.fst).join
        | _ => none
      superseded := fun u => ((checkC w (scoreC w n) n u t.caches).map Prod.fst).getD false } }

theorem reads_live {b : Base ℚ} {t : Top ℚ} {n : Nat} (q : Request)
    (hs : ∀ u ∈ t.graph.types.keys, (scoreC (t.sys.world (t.config b)) n u t.caches).isSome = true)
    (ht : ∀ u ∈ t.graph.types.keys, (courseTrialsC (t.sys.world (t.config b)) n u t.caches).isSome = true)
    (hl : ∀ u ∈ t.graph.types.keys, (lessonTrialsC (t.sys.world (t.config b)) u t.caches).isSome = true)
    (hc : ∀ u, (checkC (t.sys.world (t.config b)) (scoreC (t.sys.world (t.config b)) n) n u t.caches).isSome = true) :
    Reads b t (live b t n q) := by
  have hk : ∀ u k, t.graph.getUnitType u = some k → u ∈ t.graph.types.keys :=
    fun u k h => (AMap.mem_keys_iff _ _).2 ⟨_, h⟩
  refine ⟨fun u v h => ?_, fun u h => ?_, fun u => ?_, fun u => ?_⟩
  · simp only [live] at h
    split at h
    · cases h
    · rw [Option.map_eq_some_iff] at h
      obtain ⟨⟨v', c'⟩, h1, rfl⟩ := h
      exact ⟨n, c', h1⟩
  · obtain ⟨k, hk'⟩ := Option.ne_none_iff_exists'.1 h
    simp only [live, if_neg h]
    obtain ⟨r, hr⟩ := Option.isSome_iff_exists.1 (hs u (hk u k hk'))
    rw [hr]; simp
  · unfold GetsTrials
    simp only [live]
    cases h : t.graph.getUnitType u with
    | none => rfl
    | some k =>
      cases k with
      | course =>
        obtain ⟨⟨v, c'⟩, hr⟩ := Option.isSome_iff_exists.1 (ht u (hk u _ h))
        exact ⟨n, c', by rw [hr]; rfl⟩
      | lesson =>
        obtain ⟨⟨v, c'⟩, hr⟩ := Option.isSome_iff_exists.1 (hl u (hk u _ h))
        exact ⟨c', by rw [hr]; rfl⟩
      | exercise => rfl
  · obtain ⟨⟨v, c'⟩, hr⟩ := Option.isSome_iff_exists.1 (hc u)
    exact ⟨n, c', by simp only [live]; rw [hr]; rfl⟩

/-- Course `c` with lesson `l` (exercise `e`) and lesson `m` (exercise `d`), which depends on `l`. -/
def chainOps : List (Graph.Op Str) := [.addCourse ['c'], .addDependencies ['c'] .course [],
  .addLesson ['l'] ['c'], .addDependencies ['l'] .lesson [], .addExercise ['e'] ['l'],
  .addLesson ['m'] ['c'], .addDependencies ['m'] .lesson [['l']], .addExercise ['d'] ['m'], .updateStartingLessons]

def chain : Graph Str := Graph.run chainOps

def chainRequest : Request := { sampleRequest with
  env := { sampleRequest.env with
    graph := chain
    courseMeta := fun u => if chain.getUnitType u = some .course then some [] else none
    lessonMeta := fun u => if chain.getUnitType u = some .lesson then some [] else none
    hasExercise := fun u => decide (chain.getUnitType u = some .exercise) } }

/-- The score is the last grade. -/
def chainBase : Base ℚ := { sampleBase with
  scorer := fun _ _ _ st _ _ => ((st.1.head?.map Prod.fst).getD 0, 0, none) }

/-- Two low grades, and then a high one. -/
def lowGrades : List (Call ℚ) := [.scoreExercise ['e'] .two 10 9 id {}, .scoreExercise ['e'] .two 20 9 id {}]
def highGrades : List (Call ℚ) := lowGrades ++ [.scoreExercise ['e'] .four 30 9 id {}]

def atLow : Top ℚ := runs chainBase (fresh chain 0) lowGrades
def atHigh : Top ℚ := runs chainBase (fresh chain 0) highGrades

theorem chain_reads (h : List (Call ℚ))
    (hg : (runs chainBase (fresh chain 0) h).graph = chain)
    (hk : ∀ u ∈ chain.types.keys,
      (scoreC ((runs chainBase (fresh chain 0) h).sys.world ((runs chainBase (fresh chain 0) h).config chainBase)) 9 u
        (runs chainBase (fresh chain 0) h).caches).isSome = true ∧
      (courseTrialsC ((runs chainBase (fresh chain 0) h).sys.world ((runs chainBase (fresh chain 0) h).config chainBase))
        9 u (runs chainBase (fresh chain 0) h).caches).isSome = true ∧
      (lessonTrialsC ((runs chainBase (fresh chain 0) h).sys.world ((runs chainBase (fresh chain 0) h).config chainBase))
        u (runs chainBase (fresh chain 0) h).caches).isSome = true) :
    Reads chainBase (runs chainBase (fresh chain 0) h)
      (live chainBase (runs chainBase (fresh chain 0) h) 9 chainRequest) := by
  refine reads_live _ ?_ ?_ ?_ ?_
  · rw [hg]; exact fun u hu => (hk u hu).1
  · rw [hg]; exact fun u hu => (hk u hu).2.1
  · rw [hg]; exact fun u hu => (hk u hu).2.2
  · intro u
    have : ((runs chainBase (fresh chain 0) h).sys.world
        ((runs chainBase (fresh chain 0) h).config chainBase)).graph.getSupersededBy u = none := by
      change (runs chainBase (fresh chain 0) h).graph.getSupersededBy u = none
      rw [hg]
      rfl
    unfold checkC
    rw [this]
    rfl

theorem chain_sane {t : Top ℚ} (hg : t.graph = chain) (hb : t.blacklist.blacklisted [] = false) :
    Search.Sane (t.env (live chainBase t 9 chainRequest)) := by
  have hg' : (t.env (live chainBase t 9 chainRequest)).graph = chain := hg
  have hco : ∀ l, chain.getUnitType l = some .lesson → ∃ c, chain.getLessonCourse l = some c := by
    intro l h
    have hm : l ∈ chain.types.keys := (AMap.mem_keys_iff _ _).2 ⟨_, h⟩
    have : ∀ x ∈ chain.types.keys, chain.getUnitType x = some .lesson →
        (chain.getLessonCourse x).isSome = true := by decide +kernel
    exact Option.isSome_iff_exists.1 (this l hm h)
  refine ⟨?_, ?_, ?_, ?_, ?_, ?_, hb, ?_, ?_⟩
  · rw [hg']; exact Graph.wf_run chainOps
  · intro u
    change (t.env (live chainBase t 9 chainRequest)).graph.getUnitType u = some .course ↔
      (if chain.getUnitType u = some .course then some [] else none : Option Filters.Metadata).isSome = true
    rw [hg']
    split <;> simp_all
  · intro u
    change (t.env (live chainBase t 9 chainRequest)).graph.getUnitType u = some .lesson ↔
      (if chain.getUnitType u = some .lesson then some [] else none : Option Filters.Metadata).isSome = true
    rw [hg']
    split <;> simp_all
  · intro u
    rw [hg']
    exact (decide_eq_true_iff).symm
  · intro l hl
    unfold Search.IsLesson at hl
    rw [hg'] at hl ⊢
    exact hco l hl
  · rw [hg']; change chain.getUnitType [] = none; decide +kernel
  · change ((checkC (t.sys.world (t.config chainBase)) (scoreC (t.sys.world (t.config chainBase)) 9) 9 []
      t.caches).map Prod.fst).getD false = false
    have : (t.sys.world (t.config chainBase)).graph.getSupersededBy [] = none := by
      change t.graph.getSupersededBy [] = none
      rw [hg]
      rfl
    unfold checkC
    rw [this]
    rfl
  · intro u hu
    rw [hg'] at hu
    left
    change (if t.graph.getUnitType u = none then none else _) = none
    rw [hg, if_pos hu]

/-- The hypotheses of C85 hold of the sample.  After two low grades of `e` lesson `l` is below the passing score and
the batch consists of `e`; after a high grade the batch also has `d`, of the lesson that depends on `l`. -/
example :
    (Reads chainBase atLow (live chainBase atLow 9 chainRequest) ∧
      Search.Sane (atLow.env (live chainBase atLow 9 chainRequest)) ∧ DependsOn atLow.graph ['m'] ['l'] ∧
      GetsScore chainBase atLow ['l'] (some 2) ∧ GetsTrials chainBase atLow ['l'] (some 2) ∧
      GetsSuperseded chainBase atLow ['l'] false ∧ 2 < atLow.options.current.passing.minScore ∧
      ∃ s xs, atLow.batch (live chainBase atLow 9 chainRequest) = some (s, some xs) ∧ xs.Perm [['e']]) ∧
    (Reads chainBase atHigh (live chainBase atHigh 9 chainRequest) ∧
      Search.Sane (atHigh.env (live chainBase atHigh 9 chainRequest)) ∧
      ∃ s xs, atHigh.batch (live chainBase atHigh 9 chainRequest) = some (s, some xs) ∧
        xs.Perm [['e'], ['d']]) ∧ Batch.IsChoices chainRequest.choices := by
  have g1 : atLow.graph = chain := by
    unfold atLow
    rw [library_of_history_partial _ _ _ (by simp [lowGrades, Restarts]) (by simp [lowGrades, toGraph])]
    rfl
  have g2 : atHigh.graph = chain := by
    unfold atHigh
    rw [library_of_history_partial _ _ _ (by simp [lowGrades, highGrades, Restarts])
      (by simp [lowGrades, highGrades, toGraph])]
    rfl
  have r1 : Reads chainBase atLow (live chainBase atLow 9 chainRequest) :=
    chain_reads lowGrades g1 (by decide +kernel)
  have r2 : Reads chainBase atHigh (live chainBase atHigh 9 chainRequest) :=
    chain_reads highGrades g2 (by decide +kernel)
  have b1 : ∃ s xs, atLow.batch (live chainBase atLow 9 chainRequest) = some (s, some xs) ∧ xs.Perm [['e']] := by
    have hd : Batch.drafted (atLow.env (live chainBase atLow 9 chainRequest)) atLow.options.made 400
        (ReviewList.entries atLow.review) atLow.session none = some [['e']] := by decide +kernel
    obtain ⟨xs, hp, h⟩ := Batch.getBatch_firstOf strOrder hd
    have hall : ([['e']] : List Str).all (atLow.env (live chainBase atLow 9 chainRequest)).hasExercise = true := by
      decide +kernel
    rw [if_pos hall] at h
    exact ⟨_, xs, h, hp⟩
  have b2 : ∃ s xs, atHigh.batch (live chainBase atHigh 9 chainRequest) = some (s, some xs) ∧
      xs.Perm [['e'], ['d']] := by
    have hd : Batch.drafted (atHigh.env (live chainBase atHigh 9 chainRequest)) atHigh.options.made 400
        (ReviewList.entries atHigh.review) atHigh.session none = some [['e'], ['d']] := by decide +kernel
    obtain ⟨xs, hp, h⟩ := Batch.getBatch_firstOf strOrder hd
    have hall : ([['e'], ['d']] : List Str).all
        (atHigh.env (live chainBase atHigh 9 chainRequest)).hasExercise = true := by decide +kernel
    rw [if_pos hall] at h
    exact ⟨_, xs, h, hp⟩
  refine ⟨⟨r1, chain_sane g1 (by decide +kernel), ?_, r1.score _ _ (by decide +kernel), ?_, ?_, by decide +kernel, b1⟩,
    ⟨r2, chain_sane g2 (by decide +kernel), b2⟩, Batch.firstOf_ok strOrder⟩
  · rw [g1]
    exact ⟨[['l']], by decide +kernel, by decide⟩
  · have := r1.trials ['l']
    rwa [show (live chainBase atLow 9 chainRequest).env.trials ['l'] = some 2 by decide +kernel] at this
  · have := r1.superseded ['l']
    rwa [show (live chainBase atLow 9 chainRequest).env.superseded ['l'] = false by decide +kernel] at this

end Trane.TopLevel
