import Verif.Library.Shuffle
import Verif.Gen.KnowledgeProps
import Verif.Gen.LiteracyProps
import Verif.Gen.TranscriptionFiles

/-!
# Generators and the order of directories (C103): lemmas

A generated course does not depend on the order in which the entries of directories are returned or on the iteration
order of hash maps, except for the order of lessons, of exercises and of the values of metadata keys.
-/

namespace Trane.Gen
open Trane.Store Trane.Library Trane.Filters

variable {α γ : Type}

/-! ### Maps and lists -/

/-- Two maps with the same keys and related values. -/
theorem shuffled_of_entries {κ β δ : Type} {R : β → δ → Prop} {m : List (κ × β)} {m' : List (κ × δ)}
    (hn : (m.map Prod.fst).Nodup) (hn' : (m'.map Prod.fst).Nodup)
    (h : ∀ k x, (k, x) ∈ m → ∃ y, (k, y) ∈ m' ∧ R x y) (h' : ∀ k y, (k, y) ∈ m' → ∃ x, (k, x) ∈ m) :
    Shuffled (fun x y => y.1 = x.1 ∧ R x.2 y.2) m m' := by
  have hk : (m.map Prod.fst).Perm (m'.map Prod.fst) := by
    refine (List.perm_ext_iff_of_nodup hn hn').mpr (fun k => ?_)
    simp only [List.mem_map, Prod.exists, exists_and_right, exists_eq_right]
    constructor
    · rintro ⟨x, hx⟩
      obtain ⟨y, hy, -⟩ := h k x hx
      exact ⟨y, hy⟩
    · rintro ⟨y, hy⟩
      exact h' k y hy
  have h0 : List.Forall₂ (fun k (x : κ × β) => x ∈ m ∧ x.1 = k) (m.map Prod.fst) m := by
    suffices H : ∀ l : List (κ × β), (∀ x ∈ l, x ∈ m) → List.Forall₂ (fun k (x : κ × β) => x ∈ m ∧ x.1 = k) (l.map Prod.fst) l from
      H m (fun _ h => h)
    intro l hl
    induction l with
    | nil => exact .nil
    | cons a l ih => exact .cons ⟨hl a (by simp), rfl⟩ (ih (fun x hx => hl x (List.mem_cons_of_mem _ hx)))
  obtain ⟨cs, h1, h2⟩ := forall₂_shuffled (R := fun x y => y.1 = x.1 ∧ R x.2 y.2)
    (P' := fun k (y : κ × δ) => y ∈ m' ∧ y.1 = k) hk h0 (by
      rintro k - ⟨k', x⟩ ⟨hx, rfl⟩
      obtain ⟨y, hy, hr⟩ := h k' x hx
      exact ⟨(k', y), ⟨hy, rfl⟩, rfl, hr⟩)
  suffices H : cs = m' by rw [← H]; exact h2
  clear h2 h0 hk hn h h'
  have hu : ∀ x ∈ m', ∀ y ∈ m', x.1 = y.1 → x = y := fun x hx y hy e => List.inj_on_of_nodup_map hn' hx hy e
  clear hn'
  suffices H : ∀ l : List (κ × δ), (∀ x ∈ l, x ∈ m') → ∀ cs, List.Forall₂ (fun k (y : κ × δ) => y ∈ m' ∧ y.1 = k) (l.map Prod.fst) cs →
      cs = l from H m' (fun _ h => h) cs h1
  intro l hl
  induction l with
  | nil => intro cs h; cases h; rfl
  | cons a l ih =>
    intro cs h
    cases h with
    | cons hx ht =>
      rw [ih (fun x hx => hl x (List.mem_cons_of_mem _ hx)) _ ht, hu _ hx.1 _ (hl a (by simp)) hx.2]

theorem mapM_shuffled {β δ β' δ' : Type} {Q : β → δ → Prop} {R : β' → δ' → Prop} {f : β → Option β'} {g : δ → Option δ'}
    {l : List β} {l' : List δ} (h : Shuffled Q l l') (hf : ∀ x y, Q x y → Both R (f x) (g y)) :
    Both (Shuffled R) (l.mapM f) (l'.mapM g) := by
  obtain ⟨m, h1, h2⟩ := h
  have hb : Both (List.Forall₂ R) (m.mapM f) (l'.mapM g) := both_mapM (R := Q) (h2.imp (fun x y h => hf x y h))
  have hp : Both List.Perm (l.mapM f) (m.mapM f) := by
    clear h2 hb
    induction h1 with
    | nil => exact List.Perm.nil
    | cons x _ ih =>
      rw [List.mapM_cons, List.mapM_cons]
      refine both_bind (R := Eq) (both_refl' _) ?_
      rintro a _ rfl _ _
      exact both_bind ih (fun xs ys hs _ _ => List.Perm.cons a hs)
    | swap x y l =>
      simp only [List.mapM_cons]
      cases f x <;> cases f y <;> cases l.mapM f <;> first | trivial | exact List.Perm.swap ..
    | trans _ _ ih ih' => exact both_trans (S := List.Perm) (fun _ _ _ h h' => h.trans h') ih ih'
  cases ha : l.mapM f <;> cases hm : m.mapM f <;> cases hc : l'.mapM g <;> rw [ha, hm] at hp <;> rw [hm, hc] at hb
  all_goals first | trivial | exact hp.elim | exact hb.elim | exact ⟨_, hp, hb⟩
where
  both_refl' {β : Type} (o : Option β) : Both Eq o o := by cases o <;> first | trivial | rfl
  both_trans {β : Type} {S : β → β → Prop} (ht : ∀ a b c, S a b → S b c → S a c) {a b c : Option β} (h : Both S a b)
      (h' : Both S b c) : Both S a c := by
    cases a <;> cases b <;> cases c <;> first | trivial | exact h.elim | exact h'.elim | exact ht _ _ _ h h'

/-- Lists with distinct names and the same directories, whose files come in another order. -/
def SameDirs {C : Type} (dirs dirs' : List (Str × List (Str × C))) : Prop :=
  Shuffled (fun x y => y.1 = x.1 ∧ x.2.Perm y.2) dirs dirs'

theorem SameDirs.symm {C : Type} {dirs dirs' : List (Str × List (Str × C))} (h : SameDirs dirs dirs') : SameDirs dirs' dirs := by
  obtain ⟨m, h1, h2⟩ := shuffled_flip h
  exact ⟨m, h1, h2.imp (fun x y h => ⟨h.1.symm, h.2.symm⟩)⟩

theorem both_of_isSome {β δ : Type} {R : β → δ → Prop} {o : Option β} {o' : Option δ} (h : o.isSome = true ↔ o'.isSome = true)
    (hr : ∀ x y, o = some x → o' = some y → R x y) : Both R o o' := by
  cases o <;> cases o'
  · trivial
  · simp at h
  · simp at h
  · exact hr _ _ rfl rfl

/-! ### Knowledge bases -/

namespace Knowledge

theorem has_perm {files files' : List (Str × Content)} (h : files.Perm files') (k : File) (ct : Content) :
    Has files' k ct ↔ Has files k ct := by
  unfold Has
  rw [h.mem_iff]

theorem optFrom_unique {X : Type} {files : List (Str × Content)} (hn : (files.map (·.1)).Nodup) {k : File}
    {val : Content → Option X} {o o' : Option X} (h : OptFrom files k val o) (h' : OptFrom files k val o') : o' = o := by
  rcases h with ⟨ct, x, h1, h2, rfl⟩ | ⟨h1, rfl⟩ <;> rcases h' with ⟨ct', x', h3, h4, rfl⟩ | ⟨h3, rfl⟩
  · rw [has_unique hn h3 h1] at h4
    exact h4.symm.trans h2
  · exact (h3 _ h1).elim
  · exact (h1 _ h3).elim
  · rfl

theorem listFrom_unique {X : Type} {files : List (Str × Content)} (hn : (files.map (·.1)).Nodup) {k : File}
    {val : Content → Option (List X)} {l l' : List X} (h : ListFrom files k val l) (h' : ListFrom files k val l') : l' = l := by
  rcases h with ⟨ct, h1, h2⟩ | ⟨h1, rfl⟩ <;> rcases h' with ⟨ct', h3, h4⟩ | ⟨h3, rfl⟩
  · rw [has_unique hn h3 h1] at h4
    exact Option.some.inj (h4.symm.trans h2)
  · exact (h3 _ h1).elim
  · exact (h1 _ h3).elim
  · rfl

theorem optFrom_perm {X : Type} {files files' : List (Str × Content)} (h : files.Perm files') {k : File}
    {val : Content → Option X} {o : Option X} (ho : OptFrom files' k val o) : OptFrom files k val o := by
  unfold OptFrom at *
  simpa only [has_perm h] using ho

theorem listFrom_perm {X : Type} {files files' : List (Str × Content)} (h : files.Perm files') {k : File}
    {val : Content → Option (List X)} {l : List X} (ho : ListFrom files' k val l) : ListFrom files k val l := by
  unfold ListFrom at *
  simpa only [has_perm h] using ho

theorem lessonFrom_perm {files files' : List (Str × Content)} (h : files.Perm files') {s : Str} {l : Lesson}
    (hl : LessonFrom files' s l) : LessonFrom files s l where
  shortId := hl.shortId
  deps := listFrom_perm h hl.deps
  enc := listFrom_perm h hl.enc
  sup := listFrom_perm h hl.sup
  name := optFrom_perm h hl.name
  descr := optFrom_perm h hl.descr
  metadata := optFrom_perm h hl.metadata
  defaultType := optFrom_perm h hl.defaultType
  instr := by simpa only [has_perm h] using hl.instr
  material := by simpa only [has_perm h] using hl.material

theorem lessonFrom_unique {files : List (Str × Content)} (hn : (files.map (·.1)).Nodup) {s : Str} {l l' : Lesson}
    (h : LessonFrom files s l) (h' : LessonFrom files s l') : l' = l := by
  have e1 := h.shortId.trans h'.shortId.symm
  have e2 := listFrom_unique hn h'.deps h.deps
  have e3 := listFrom_unique hn h'.enc h.enc
  have e4 := listFrom_unique hn h'.sup h.sup
  have e5 := optFrom_unique hn h'.name h.name
  have e6 := optFrom_unique hn h'.descr h.descr
  have e7 := optFrom_unique hn h'.metadata h.metadata
  have e8 := optFrom_unique hn h'.defaultType h.defaultType
  have e9 : l.hasInstr = l'.hasInstr := Bool.eq_iff_iff.mpr (h.instr.trans h'.instr.symm)
  have e10 : l.hasMaterial = l'.hasMaterial := Bool.eq_iff_iff.mpr (h.material.trans h'.material.symm)
  cases l; cases l'
  dsimp only at *
  subst e1 e2 e3 e4 e5 e6 e7 e8 e9 e10
  rfl

theorem exerciseFrom_unique {files : List (Str × Content)} (hn : (files.map (·.1)).Nodup) {e e' : Exercise}
    (hs : e.shortId = e'.shortId) (h : ExerciseFrom files e) (h' : ExerciseFrom files e') : e' = e := by
  obtain ⟨ct, f1, f2⟩ := h.front
  obtain ⟨ct', f3, f4⟩ := h'.front
  have e2 : e.back = e'.back := by
    have hb := h.back
    have hb' := h'.back
    rw [← hs] at hb'
    rcases hb with ⟨c, b1, b2⟩ | ⟨b1, b2⟩ <;> rcases hb' with ⟨c', b3, b4⟩ | ⟨b3, b4⟩
    · rw [b2, b4, has_unique hn b3 b1]
    · exact (b3 _ b1).elim
    · exact (b1 _ b3).elim
    · rw [b2, b4]
  have n1 := h'.name
  have n2 := h'.descr
  have n3 := h'.type
  rw [← hs] at n1 n2 n3 f3
  have e1 : e.front = e'.front := by rw [f2, f4, has_unique hn f3 f1]
  have e3 := optFrom_unique hn n1 h.name
  have e4 := optFrom_unique hn n2 h.descr
  have e5 := optFrom_unique hn n3 h.type
  cases e; cases e'
  dsimp only at *
  subst hs e1 e2 e3 e4 e5
  rfl

theorem exerciseFrom_perm {files files' : List (Str × Content)} (h : files.Perm files') {e : Exercise}
    (he : ExerciseFrom files' e) : ExerciseFrom files e where
  nonempty := he.nonempty
  front := by simpa only [has_perm h] using he.front
  back := by simpa only [has_perm h] using he.back
  name := optFrom_perm h he.name
  descr := optFrom_perm h he.descr
  type := optFrom_perm h he.type

theorem exercisesFrom_perm {files files' : List (Str × Content)} (hn : (files.map (·.1)).Nodup) (h : files.Perm files')
    {es es' : List Exercise} (he : ExercisesFrom files es) (he' : ExercisesFrom files' es') : es.Perm es' := by
  refine (List.perm_ext_iff_of_nodup he.distinct.of_map he'.distinct.of_map).mpr (fun e => ⟨fun hm => ?_, fun hm => ?_⟩)
  · have hf := he.from_files e hm
    obtain ⟨ct, hc, -⟩ := hf.front
    obtain ⟨e', hm', hs⟩ := he'.all e.shortId hf.nonempty ⟨ct, (has_perm h _ _).mpr hc⟩
    rwa [← exerciseFrom_unique hn hs.symm hf (exerciseFrom_perm h (he'.from_files e' hm'))]
  · have hf := exerciseFrom_perm h (he'.from_files e hm)
    obtain ⟨ct, hc, -⟩ := hf.front
    obtain ⟨e', hm', hs⟩ := he.all e.shortId hf.nonempty ⟨ct, hc⟩
    rwa [← exerciseFrom_unique hn hs.symm hf (he.from_files e' hm')]

theorem dirReadable_perm {inlined : Bool} {files files' : List (Str × Content)} (h : files.Perm files') :
    DirReadable inlined files' ↔ DirReadable inlined files := by
  unfold DirReadable
  simp only [has_perm h]

theorem lessonDir_same {dirs dirs' : List (Str × List (Str × Content))} (h : SameDirs dirs dirs') {s : Str}
    {files : List (Str × Content)} (hd : LessonDir dirs s files) : ∃ files', LessonDir dirs' s files' ∧ files.Perm files' := by
  obtain ⟨⟨n, fs⟩, hm, e, hp⟩ := shuffled_left h _ hd
  dsimp only at e
  subst e
  exact ⟨fs, hm, hp⟩

theorem toFull_congr {c : Str} {short short' : List Str} (h : ∀ s, s ∈ short ↔ s ∈ short') : toFull c short = toFull c short' := by
  funext id
  unfold toFull
  simp only [h]

theorem convert_congr {c : Str} {short short' : List Str} (h : ∀ s, s ∈ short ↔ s ∈ short') (l : Lesson) :
    convert c short l = convert c short' l := by
  unfold convert
  rw [toFull_congr h]

/-- The lessons and the exercises of a knowledge base come in another order. -/
theorem generate_same (R : Rest α) (inlined : Bool) {order order2 : Groups → Groups} {order' order2' : Lessons → Lessons}
    (h1 : ∀ m, (order m).Perm m) (h2 : ∀ m, (order' m).Perm m) (h3 : ∀ m, (order2 m).Perm m) (h4 : ∀ m, (order2' m).Perm m)
    {dirs dirs' : List (Str × List (Str × Content))} (hd : SameDirs dirs dirs') (hn : (dirs.map (·.1)).Nodup)
    (hf : ∀ d ∈ dirs, (d.2.map (·.1)).Nodup) (hn' : (dirs'.map (·.1)).Nodup) (hf' : ∀ d ∈ dirs', (d.2.map (·.1)).Nodup)
    (c : CourseM α γ) :
    Both SameGenerated (generate R inlined order order' dirs c) (generate R inlined order2 order2' dirs' c) := by
  refine both_of_isSome ?_ ?_
  · rw [generate_succeeds_iff R inlined order order' dirs c h1 h2 hn hf,
      generate_succeeds_iff R inlined order2 order2' dirs' c h3 h4 hn' hf']
    constructor
    · intro h s files hs
      obtain ⟨files', hs', hp⟩ := lessonDir_same hd.symm hs
      exact (dirReadable_perm hp).mp (h s files' hs')
    · intro h s files hs
      obtain ⟨files', hs', hp⟩ := lessonDir_same hd hs
      exact (dirReadable_perm hp).mp (h s files' hs')
  · intro g g' hg hg'
    obtain ⟨ls, a1, a2, a3, a4⟩ := generate_parts R inlined order order' dirs c hg
    obtain ⟨ls', b1, b2, b3, b4⟩ := generate_parts R inlined order2 order2' dirs' c hg'
    obtain ⟨r1, r2, r3⟩ := openLessons_exact order dirs hn ls a1
    obtain ⟨q1, q2, q3⟩ := openLessons_exact order2 dirs' hn' ls' b1
    have hls : Shuffled (fun x y => y.1 = x.1 ∧ (y.2.1 = x.2.1 ∧ x.2.2.Perm y.2.2)) ls ls' := by
      refine shuffled_of_entries (R := fun x y => y.1 = x.1 ∧ x.2.Perm y.2) r1 q1 ?_ ?_
      · rintro s ⟨l, es⟩ hm
        obtain ⟨files, hs, ho⟩ := (r3 s _).mp hm
        obtain ⟨files', hs', hp⟩ := lessonDir_same hd hs
        obtain ⟨⟨l', es'⟩, ho'⟩ := Option.isSome_iff_exists.mp (q2 s files' hs')
        obtain ⟨x1, x2⟩ := openLesson_exact order h1 s files (hf _ hs) l es ho
        obtain ⟨y1, y2⟩ := openLesson_exact order2 h3 s files' (hf' _ hs') l' es' ho'
        exact ⟨(l', es'), (q3 s _).mpr ⟨files', hs', ho'⟩, lessonFrom_unique (hf _ hs) x1 (lessonFrom_perm hp y1),
          exercisesFrom_perm (hf _ hs) hp x2 y2⟩
      · rintro s ⟨l, es⟩ hm
        obtain ⟨files', hs', ho'⟩ := (q3 s _).mp hm
        obtain ⟨files, hs, hp⟩ := lessonDir_same hd.symm hs'
        obtain ⟨x, ho⟩ := Option.isSome_iff_exists.mp (r2 s files hs)
        exact ⟨x, (r3 s _).mpr ⟨files, hs, ho⟩⟩
    have hkeys : ∀ s, s ∈ ls.keys ↔ s ∈ ls'.keys := by
      intro s
      constructor
      · intro h
        obtain ⟨x, hx, rfl⟩ := List.mem_map.mp h
        obtain ⟨y, hy, e, -⟩ := shuffled_left hls x hx
        exact e ▸ List.mem_map.mpr ⟨y, hy, rfl⟩
      · intro h
        obtain ⟨y, hy, rfl⟩ := List.mem_map.mp h
        obtain ⟨x, hx, e, -⟩ := shuffled_right hls y hy
        exact e ▸ List.mem_map.mpr ⟨x, hx, rfl⟩
    have hord := shuffled_perm_right (shuffled_perm_left (h2 ls) hls) (h4 ls').symm
    have hb := mapM_shuffled (R := SameLesson) (f := manifests R inlined c.id ls.keys) (g := manifests R inlined c.id ls'.keys)
      hord (by
        rintro ⟨s, l, es⟩ ⟨s', l', es'⟩ ⟨-, e, hp⟩
        dsimp only at e hp
        subst e
        unfold manifests
        dsimp only
        rw [convert_congr hkeys]
        have hb := mapM_shuffled (R := Eq)
          (f := exerciseManifest R inlined c.id (convert c.id ls'.keys l').shortId (convert c.id ls'.keys l').defaultType)
          (g := exerciseManifest R inlined c.id (convert c.id ls'.keys l').shortId (convert c.id ls'.keys l').defaultType)
          (shuffled_of_perm (R := Eq) (fun _ => rfl) hp) (by
            rintro x _ rfl
            exact mapM_shuffled.both_refl' _)
        refine both_bind hb ?_
        rintro xs ys ⟨zs, hz1, hz2⟩ - -
        rw [List.forall₂_eq_eq_eq] at hz2
        subst hz2
        exact ⟨rfl, hz1⟩)
    rw [a2, b2] at hb
    exact ⟨hb, by rw [a3, b3]; trivial, by rw [a4, b4]⟩

end Knowledge

/-! ### Literacy -/

namespace Literacy

theorem has_perm {files files' : List (Str × Content)} (h : files.Perm files') (k : File) (ct : Content) :
    Has files' k ct ↔ Has files k ct := by
  unfold Has
  rw [h.mem_iff]

theorem has_unique {files : List (Str × Content)} (hn : (files.map (·.1)).Nodup) {k : File} {ct ct' : Content}
    (h : Has files k ct) (h' : Has files k ct') : ct = ct' :=
  congrArg Prod.snd (List.inj_on_of_nodup_map hn h h' rfl)

theorem optFrom_unique {files : List (Str × Content)} (hn : (files.map (·.1)).Nodup) {k : File}
    {val : Content → Option Str} {o o' : Option Str} (h : OptFrom files k val o) (h' : OptFrom files k val o') : o' = o := by
  rcases h with ⟨ct, x, h1, h2, rfl⟩ | ⟨h1, rfl⟩ <;> rcases h' with ⟨ct', x', h3, h4, rfl⟩ | ⟨h3, rfl⟩
  · rw [has_unique hn h3 h1] at h4
    exact h4.symm.trans h2
  · exact (h3 _ h1).elim
  · exact (h1 _ h3).elim
  · rfl

theorem listFrom_unique {X : Type} {files : List (Str × Content)} (hn : (files.map (·.1)).Nodup) {k : File}
    {val : Content → Option (List X)} {l l' : List X} (h : ListFrom files k val l) (h' : ListFrom files k val l') : l' = l := by
  rcases h with ⟨ct, h1, h2⟩ | ⟨h1, rfl⟩ <;> rcases h' with ⟨ct', h3, h4⟩ | ⟨h3, rfl⟩
  · rw [has_unique hn h3 h1] at h4
    exact Option.some.inj (h4.symm.trans h2)
  · exact (h3 _ h1).elim
  · exact (h1 _ h3).elim
  · rfl

theorem optFrom_perm {files files' : List (Str × Content)} (h : files.Perm files') {k : File}
    {val : Content → Option Str} {o : Option Str} (ho : OptFrom files' k val o) : OptFrom files k val o := by
  unfold OptFrom at *
  simpa only [has_perm h] using ho

theorem listFrom_perm {X : Type} {files files' : List (Str × Content)} (h : files.Perm files') {k : File}
    {val : Content → Option (List X)} {l : List X} (ho : ListFrom files' k val l) : ListFrom files k val l := by
  unfold ListFrom at *
  simpa only [has_perm h] using ho

instance : Std.Total (fun a b : Str × Option Str => pairLe a b = true) where
  total := by
    rintro ⟨a, x⟩ ⟨b, y⟩
    rcases lt_trichotomy a b with h | rfl | h
    · left; simp [pairLe, h]
    · cases x with
      | none => left; simp [pairLe]
      | some x =>
        cases y with
        | none => right; simp [pairLe]
        | some y =>
          rcases le_total x y with h | h
          · left; simp [pairLe, h]
          · right; simp [pairLe, h]
    · right; simp [pairLe, h]

theorem pairLe_iff (a b : Str × Option Str) : pairLe a b = true ↔ a.1 < b.1 ∨ (a.1 = b.1 ∧ ∀ x, a.2 = some x → ∃ y, b.2 = some y ∧ x ≤ y) := by
  obtain ⟨a, x⟩ := a
  obtain ⟨b, y⟩ := b
  cases x <;> cases y <;> simp [pairLe]

instance : IsTrans (Str × Option Str) (fun a b => pairLe a b = true) where
  trans := by
    intro a b c h h'
    rw [pairLe_iff] at *
    rcases h with h | ⟨e, h⟩ <;> rcases h' with h' | ⟨e', h'⟩
    · exact .inl (h.trans h')
    · exact .inl (e' ▸ h)
    · exact .inl (e ▸ h')
    · refine .inr ⟨e.trans e', fun x hx => ?_⟩
      obtain ⟨y, hy, h1⟩ := h x hx
      obtain ⟨z, hz, h2⟩ := h' y hy
      exact ⟨z, hz, h1.trans h2⟩

theorem pairLe_antisymm {a b : Str × Option Str} (h : pairLe a b = true) (h' : pairLe b a = true) : a = b := by
  rw [pairLe_iff] at *
  rcases h with h | ⟨e, h⟩ <;> rcases h' with h' | ⟨e', h'⟩
  · exact (lt_asymm h h').elim
  · exact (lt_irrefl _ (e' ▸ h)).elim
  · exact (lt_irrefl _ (e ▸ h')).elim
  · obtain ⟨a, x⟩ := a
    obtain ⟨b, y⟩ := b
    dsimp only at *
    subst e
    cases x with
    | none =>
      cases y with
      | none => rfl
      | some y => obtain ⟨z, hz, -⟩ := h' y rfl; cases hz
    | some x =>
      obtain ⟨z, rfl, h1⟩ := h x rfl
      obtain ⟨w, hw, h2⟩ := h' z rfl
      cases hw
      rw [le_antisymm h1 h2]

theorem sorted_same {a b : List (Str × Option Str)} (h : a.Perm b) :
    a.insertionSort (fun a b => pairLe a b = true) = b.insertionSort (fun a b => pairLe a b = true) := by
  refine List.Perm.eq_of_pairwise (le := fun a b => pairLe a b = true) (fun _ _ _ _ => pairLe_antisymm)
    (List.pairwise_insertionSort _ a) (List.pairwise_insertionSort _ b) ?_
  exact ((List.perm_insertionSort _ a).trans h).trans (List.perm_insertionSort _ b).symm

theorem recognised_perm {files files' : List (Str × Content)} (h : files.Perm files') :
    (recognised files).Perm (recognised files') := h.filterMap _

/-- A directory gives the same lesson in whatever order its files come. -/
theorem openLesson_same {files files' : List (Str × Content)} (hn : (files.map (·.1)).Nodup) (h : files.Perm files') (s : Str) :
    openLesson s files' = openLesson s files := by
  have hn' : (files'.map (·.1)).Nodup := (h.map _).nodup_iff.mp hn
  have hb : Both (fun l l' => l' = l) (openLesson s files) (openLesson s files') := by
    refine both_of_isSome ?_ ?_
    · rw [openLesson_succeeds_iff, openLesson_succeeds_iff]
      simp only [has_perm h]
    · intro l l' ho ho'
      obtain ⟨r1, r2, r3, r4⟩ := references_exact s files l hn ho
      obtain ⟨q1, q2, q3, q4⟩ := references_exact s files' l' hn' ho'
      obtain ⟨r5, r6, r7⟩ := texts_exact s files l hn ho
      obtain ⟨q5, q6, q7⟩ := texts_exact s files' l' hn' ho'
      have e1 := listFrom_unique hn (listFrom_perm h q1) r1
      have e2 := listFrom_unique hn (listFrom_perm h q2) r2
      have e3 := listFrom_unique hn (listFrom_perm h q3) r3
      have e4 := r4.trans q4.symm
      have e5 := optFrom_unique hn (optFrom_perm h q5) r5
      have e6 := optFrom_unique hn (optFrom_perm h q6) r6
      have e7 := optFrom_unique hn (optFrom_perm h q7) r7
      obtain ⟨ans, l0, a1, a2, a3⟩ := openLesson_parts ho
      obtain ⟨ans', l0', b1, b2, b3⟩ := openLesson_parts ho'
      have hfind : ∀ s, ans'.1.find s = ans.1.find s ∧ ans'.2.find s = ans.2.find s := by
        intro s
        constructor
        · refine Option.ext (fun t => ?_)
          rw [(answers_exact _ (nodup_recognised files' hn') _ _ b1 s t).1, (answers_exact _ (nodup_recognised files hn) _ _ a1 s t).1]
          simp only [(recognised_perm h).mem_iff]
        · refine Option.ext (fun t => ?_)
          rw [(answers_exact _ (nodup_recognised files' hn') _ _ b1 s t).2, (answers_exact _ (nodup_recognised files hn) _ _ a1 s t).2]
          simp only [(recognised_perm h).mem_iff]
      have hadds : ∀ f, adds ans' f = adds ans f := by
        rintro ⟨k, ct⟩
        unfold adds
        cases k <;> simp only [hfind]
      obtain ⟨c1, c2, -⟩ := questions_fold ans _ _ _ a2
      obtain ⟨d1, d2, -⟩ := questions_fold ans' _ _ _ b2
      simp only [hadds] at d1 d2
      have e8 : l.examples = l'.examples := by
        rw [a3, b3]
        refine sorted_same ?_
        rw [c1, d1]
        exact ((recognised_perm h).flatMap_right _).append_left _
      have e9 : l.exceptions = l'.exceptions := by
        rw [a3, b3]
        refine sorted_same ?_
        rw [c2, d2]
        exact ((recognised_perm h).flatMap_right _).append_left _
      clear a3 b3
      cases l; cases l'
      dsimp only at *
      subst e1 e2 e3 e4 e5 e6 e7 e8 e9
      rfl
  cases h1 : openLesson s files <;> cases h2 : openLesson s files' <;> (try rfl) <;> rw [h1, h2] at hb
  all_goals first | exact hb.elim | exact congrArg some hb

theorem lessonDir_same {dirs dirs' : List (Str × List (Str × Content))} (h : SameDirs dirs dirs') {s : Str}
    {files : List (Str × Content)} (hd : LessonDir dirs s files) : ∃ files', LessonDir dirs' s files' ∧ files.Perm files' := by
  obtain ⟨hs, hd⟩ := hd
  obtain ⟨⟨n, fs⟩, hm, e, hp⟩ := shuffled_left h _ hd
  dsimp only at e
  subst e
  exact ⟨fs, ⟨hs, hm⟩, hp⟩

theorem openLessons_same {dirs dirs' : List (Str × List (Str × Content))} (hd : SameDirs dirs dirs')
    (hn : (dirs.map (·.1)).Nodup) (hf : ∀ d ∈ dirs, (d.2.map (·.1)).Nodup) (hn' : (dirs'.map (·.1)).Nodup)
    (hf' : ∀ d ∈ dirs', (d.2.map (·.1)).Nodup) : Both List.Perm (openLessons dirs) (openLessons dirs') := by
  refine both_of_isSome ?_ ?_
  · rw [openLessons_succeeds_iff, openLessons_succeeds_iff]
    constructor
    · intro h s files hs
      obtain ⟨files', hs', hp⟩ := lessonDir_same hd.symm hs
      rw [← openLesson_same (hf' _ hs.2) hp]
      exact h s files' hs'
    · intro h s files hs
      obtain ⟨files', hs', hp⟩ := lessonDir_same hd hs
      rw [← openLesson_same (hf _ hs.2) hp]
      exact h s files' hs'
  · intro m m' hm hm'
    obtain ⟨r1, r2, r3⟩ := openLessons_exact dirs hn m hm
    obtain ⟨q1, q2, q3⟩ := openLessons_exact dirs' hn' m' hm'
    refine (List.perm_ext_iff_of_nodup (List.Nodup.of_map _ r1) (List.Nodup.of_map _ q1)).mpr ?_
    rintro ⟨s, l⟩
    rw [r3, q3]
    constructor
    · rintro ⟨files, hs, ho⟩
      obtain ⟨files', hs', hp⟩ := lessonDir_same hd hs
      exact ⟨files', hs', by rw [openLesson_same (hf _ hs.2) hp]; exact ho⟩
    · rintro ⟨files, hs, ho⟩
      obtain ⟨files', hs', hp⟩ := lessonDir_same hd.symm hs
      exact ⟨files', hs', by rw [openLesson_same (hf' _ hs.2) hp]; exact ho⟩

theorem manifests_congr (R : Rest α γ) (b : Bool) (c : CourseM α γ) {short short' : List Str} (h : ∀ s, s ∈ short ↔ s ∈ short') :
    manifests R b c short = manifests R b c short' := by
  have hf : ∀ k, fullId k c.id short = fullId k c.id short' := by
    intro k
    funext id
    unfold fullId
    simp only [h]
  funext e
  unfold manifests reading dictation
  simp only [hf]

/-- The lessons of a literacy course come in another order. -/
theorem generate_same (R : Rest α γ) (b : Bool) {order order' : AMap Str Lesson → AMap Str Lesson}
    (h1 : ∀ m, (order m).Perm m) (h2 : ∀ m, (order' m).Perm m)
    {dirs dirs' : List (Str × List (Str × Content))} (hd : SameDirs dirs dirs') (hn : (dirs.map (·.1)).Nodup)
    (hf : ∀ d ∈ dirs, (d.2.map (·.1)).Nodup) (hn' : (dirs'.map (·.1)).Nodup) (hf' : ∀ d ∈ dirs', (d.2.map (·.1)).Nodup)
    (ins : Option (Option α)) (c : CourseM α γ) :
    Both SameGenerated (generate R b order dirs ins c) (generate R b order' dirs' ins c) := by
  unfold generate
  refine both_bind (openLessons_same hd hn hf hn' hf') ?_
  intro ls ls' hp _ _
  cases ins with
  | none => trivial
  | some i =>
    have hp2 : (order ls).Perm (order' ls') := ((h1 ls).trans hp).trans (h2 ls').symm
    refine ⟨?_, sameMetadata_refl _, rfl⟩
    refine shuffled_of_perm (fun x => ⟨rfl, .refl _⟩) ?_
    unfold generated
    dsimp only
    rw [manifests_congr (short := AMap.keys (order ls)) (short' := AMap.keys (order' ls')) R b c (fun s => (hp2.map Prod.fst).mem_iff)]
    exact hp2.flatMap_right _

end Literacy

/-! ### Transcription -/

namespace Transcription

theorem reads_perm {es es' : List Entry} (h : es.Perm es') : ∀ {ps : List Passages}, Reads es ps → ∃ ps', Reads es' ps' ∧ ps.Perm ps' := by
  induction h with
  | nil => intro ps h; exact ⟨ps, h, .refl _⟩
  | cons x _ ih =>
    intro ps h
    cases h with
    | skip h => obtain ⟨qs, h1, h2⟩ := ih h; exact ⟨qs, .skip h1, h2⟩
    | other hn h => obtain ⟨qs, h1, h2⟩ := ih h; exact ⟨qs, .other hn h1, h2⟩
    | json hn h => obtain ⟨qs, h1, h2⟩ := ih h; exact ⟨_, .json hn h1, h2.cons _⟩
  | swap x y l =>
    intro ps h
    cases h with
    | skip h =>
      cases h with
      | skip h => exact ⟨_, .skip (.skip h), .refl _⟩
      | other hn h => exact ⟨_, .other hn (.skip h), .refl _⟩
      | json hn h => exact ⟨_, .json hn (.skip h), .refl _⟩
    | other hm h =>
      cases h with
      | skip h => exact ⟨_, .skip (.other hm h), .refl _⟩
      | other hn h => exact ⟨_, .other hn (.other hm h), .refl _⟩
      | json hn h => exact ⟨_, .json hn (.other hm h), .refl _⟩
    | json hm h =>
      cases h with
      | skip h => exact ⟨_, .skip (.json hm h), .refl _⟩
      | other hn h => exact ⟨_, .other hn (.json hm h), .refl _⟩
      | json hn h => exact ⟨_, .json hn (.json hm h), .swap ..⟩
  | trans _ _ ih ih' =>
    intro ps h
    obtain ⟨qs, h1, h2⟩ := ih h
    obtain ⟨rs, h3, h4⟩ := ih' h1
    exact ⟨rs, h3, h2.trans h4⟩

theorem openDirectory_same {readDir readDir' : Str → Option (List Entry)} (cfg : Config)
    (h : ∀ d, Both List.Perm (readDir d) (readDir' d)) :
    Both List.Perm (openDirectory readDir cfg) (openDirectory readDir' cfg) := by
  have key : ∀ {readDir readDir' : Str → Option (List Entry)}, (∀ d, Both List.Perm (readDir d) (readDir' d)) →
      ∀ ps, openDirectory readDir cfg = some ps → ∃ ps', openDirectory readDir' cfg = some ps' ∧ ps.Perm ps' := by
    intro readDir readDir' h ps ho
    rcases (openDirectory_iff readDir cfg ps).mp ho with ⟨h1, rfl⟩ | ⟨h1, es, h2, h3, h4⟩
    · exact ⟨[], (openDirectory_iff readDir' cfg []).mpr (.inl ⟨h1, rfl⟩), .refl _⟩
    · have hb := h cfg.passageDir
      rw [h2] at hb
      cases h5 : readDir' cfg.passageDir with
      | none => rw [h5] at hb; exact hb.elim
      | some es' =>
        rw [h5] at hb
        obtain ⟨ps', h6, h7⟩ := reads_perm hb h3
        exact ⟨ps', (openDirectory_iff readDir' cfg ps').mpr (.inr ⟨h1, es', h5, h6, (h7.map _).nodup_iff.mp h4⟩), h7⟩
  refine both_of_isSome ⟨?_, ?_⟩ ?_
  · intro hs
    obtain ⟨ps, hs⟩ := Option.isSome_iff_exists.mp hs
    obtain ⟨ps', hs', -⟩ := key h ps hs
    rw [hs']; rfl
  · intro hs
    obtain ⟨ps, hs⟩ := Option.isSome_iff_exists.mp hs
    obtain ⟨ps', hs', -⟩ := key (fun d => both_imp (fun _ _ h => h.symm) (both_flip (h d))) ps hs
    rw [hs']; rfl
  · intro ps ps' hs hs'
    obtain ⟨qs, h1, h2⟩ := key h ps hs
    rw [hs'] at h1
    cases h1
    exact h2

/-- Metadata with the values of each key in another order. -/
theorem push_same (key : Str) (f : Passages → Option Str) {ps ps' : List Passages} (h : ps.Perm ps') {m m' : Metadata}
    (hm : ∀ k, Both List.Perm (m.find k) (m'.find k)) (k : Str) :
    Both List.Perm ((ps.foldl (fun m p => pushTo key m (f p)) m).find k)
      ((ps'.foldl (fun m p => pushTo key m (f p)) m').find k) := by
  obtain ⟨h1, h2⟩ := fold_push key f ps m
  obtain ⟨h3, h4⟩ := fold_push key f ps' m'
  by_cases hk : k = key
  · subst hk
    rw [h2, h4]
    have hp : (ps.filterMap f).Perm (ps'.filterMap f) := h.filterMap f
    by_cases he : ps.filterMap f = []
    · have he' : ps'.filterMap f = [] := by rw [he] at hp; exact hp.symm.eq_nil
      rw [if_pos he, if_pos he']
      exact hm k
    · have he' : ps'.filterMap f ≠ [] := fun e => he (by rw [e] at hp; exact hp.eq_nil)
      rw [if_neg he, if_neg he']
      refine List.Perm.append ?_ hp
      have := hm k
      cases ha : m.find k <;> cases hb : m'.find k <;> rw [ha, hb] at this
      all_goals first | exact (this : False).elim | exact this | exact .refl _
  · rw [h1 k hk, h3 k hk]
    exact hm k

/-- The exercises of the lessons of a transcription course, and its artists and albums, come in another order. -/
theorem generate_same (lessonRest : Kind → α) (asset : Kind → Passages → Str → Str → α) (intro : α) (asConfig : γ → Option Config)
    {readDir readDir' : Str → Option (List Entry)} (h : ∀ d, Both List.Perm (readDir d) (readDir' d)) (cfg : Config)
    (is : List Instrument) (c : CourseM α γ) :
    Both SameGenerated (generate lessonRest asset intro asConfig readDir cfg is c)
      (generate lessonRest asset intro asConfig readDir' cfg is c) := by
  unfold generate
  refine both_bind (openDirectory_same cfg h) ?_
  intro found found' hp _ _
  have hps : (found ++ cfg.inlined).Perm (found' ++ cfg.inlined) := hp.append_right _
  refine ⟨?_, ?_, rfl⟩
  · dsimp only
    generalize c.gen.bind asConfig = own
    generalize found ++ cfg.inlined = ps at hps
    generalize found' ++ cfg.inlined = ps' at hps
    have ha : ∀ b, SameLesson (singingLesson lessonRest asset cfg c.id ps b) (singingLesson lessonRest asset cfg c.id ps' b) := by
      intro b
      refine ⟨rfl, ?_⟩
      cases b
      · exact hps.flatMap_right _
      · exact .refl _
    have hb : ∀ b, SameLesson (advancedSingingLesson lessonRest asset c.id ps b) (advancedSingingLesson lessonRest asset c.id ps' b) := by
      intro b
      refine ⟨rfl, ?_⟩
      cases b
      · exact hps.flatMap_right _
      · exact .refl _
    have hc : List.Forall₂ SameLesson (is.map (transcriptionLesson lessonRest asset cfg c.id ps))
        (is.map (transcriptionLesson lessonRest asset cfg c.id ps')) := by
      rw [List.forall₂_map_left_iff, List.forall₂_map_right_iff]
      exact forall₂_same (fun i _ => ⟨rfl, hps.flatMap_right _⟩)
    have hd : List.Forall₂ SameLesson (is.map (advancedTranscriptionLesson lessonRest asset c.id ps))
        (is.map (advancedTranscriptionLesson lessonRest asset c.id ps')) := by
      rw [List.forall₂_map_left_iff, List.forall₂_map_right_iff]
      exact forall₂_same (fun i _ => ⟨rfl, hps.flatMap_right _⟩)
    refine ⟨_, .refl _, ?_⟩
    unfold lessonManifests
    dsimp only
    cases own with
    | none => exact .cons (ha _) (.cons (hb _) (List.rel_append hc hd))
    | some own =>
      dsimp only
      split
      · exact .cons (ha _) hc
      · exact .cons (ha _) (.cons (hb _) (List.rel_append hc hd))
  · exact fun k => push_same _ _ hps (fun k => push_same _ _ hps (fun k => by
      cases ((c.metadata.getD []).put courseKey ["true".toList]).find k with
      | none => trivial
      | some l => exact List.Perm.refl l) k) k

end Transcription

end Trane.Gen
