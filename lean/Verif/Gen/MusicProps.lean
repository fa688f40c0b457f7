import Verif.Gen.Music
import Verif.Library.ListingProps
import Verif.Gen.Accept

/-!
# C51: the music piece generator
-/

namespace Trane.Gen.Music
open Trane.Store Trane.Library Trane.Gen Trane.Graph

variable {α γ : Type}

/-! ### Specification -/

/-- `At p path q`: following the indices of `path` from the passage `p` leads to `q`. -/
inductive At : Passage → List Nat → Passage → Prop
  | here (p : Passage) : At p [] p
  | step {s e : Str} {subs : List (Nat × Passage)} {i : Nat} {r : Passage} {path : List Nat}
      {q : Passage} : (i, r) ∈ subs → At r path q → At (.mk s e subs) (i :: path) q

/-- The indices of the sub-passages of each passage are distinct, as the keys of a hash map are. -/
inductive Valid : Passage → Prop
  | mk {s e : Str} {subs : List (Nat × Passage)} : (subs.map Prod.fst).Nodup →
      (∀ x ∈ subs, Valid x.2) → Valid (.mk s e subs)

/-- The id of the lesson for the passage at `path`: the course id, `0` and the indices, separated by
`::`. -/
def idAt (course : Str) (path : List Nat) : Str := lessonId course (0 :: path)

/-! ### Lemmas -/

mutual
/-- The passages of a tree with their paths, in the order of the generated lessons. -/
def paths (pre : List Nat) : Passage → List (List Nat × Passage)
  | .mk s e subs => pathsSubs pre subs ++ [(pre, .mk s e subs)]
def pathsSubs (pre : List Nat) : List (Nat × Passage) → List (List Nat × Passage)
  | [] => []
  | (i, p) :: rest => paths (pre ++ [i]) p ++ pathsSubs pre rest
end

def entry (c : Str) (lr : α) (a : Str → Str → α) (x : List Nat × Passage) :
    LessonM α × List (ExerciseM α) :=
  (lessonOf c lr x.1 x.2.subs, [exerciseOf c a x.1 x.2.start x.2.stop])

mutual
theorem helper_eq (c : Str) (lr : α) (a : Str → Str → α) (pre : List Nat) :
    ∀ p : Passage, helper c lr a pre p = (paths pre p).map (entry c lr a)
  | .mk s e subs => by
    rw [helper, paths, List.map_append, helperSubs_eq c lr a pre subs]
    rfl
theorem helperSubs_eq (c : Str) (lr : α) (a : Str → Str → α) (pre : List Nat) :
    ∀ subs : List (Nat × Passage), helperSubs c lr a pre subs = (pathsSubs pre subs).map (entry c lr a)
  | [] => by rw [helperSubs, pathsSubs]; rfl
  | (i, p) :: rest => by
    rw [helperSubs, pathsSubs, List.map_append, helper_eq c lr a (pre ++ [i]) p,
      helperSubs_eq c lr a pre rest]
end

mutual
theorem mem_paths (pre : List Nat) : ∀ (p : Passage) (x : List Nat × Passage),
    x ∈ paths pre p ↔ ∃ rel, At p rel x.2 ∧ x.1 = pre ++ rel
  | .mk s e subs, (a, q) => by
    rw [paths, List.mem_append, mem_pathsSubs pre subs (a, q), List.mem_singleton]
    constructor
    · rintro (⟨i, r, rel, hm, h, e⟩ | h)
      · exact ⟨i :: rel, At.step hm h, e⟩
      · cases h; exact ⟨[], At.here _, by simp⟩
    · rintro ⟨rel, h, e'⟩
      cases h with
      | here => right; rw [List.append_nil] at e'; exact Prod.ext e' rfl
      | step hm h => left; exact ⟨_, _, _, hm, h, e'⟩
theorem mem_pathsSubs (pre : List Nat) : ∀ (subs : List (Nat × Passage)) (x : List Nat × Passage),
    x ∈ pathsSubs pre subs ↔ ∃ i r rel, (i, r) ∈ subs ∧ At r rel x.2 ∧ x.1 = pre ++ i :: rel
  | [], x => by rw [pathsSubs]; simp
  | (i, p) :: rest, x => by
    rw [pathsSubs, List.mem_append, mem_paths (pre ++ [i]) p x, mem_pathsSubs pre rest x]
    constructor
    · rintro (⟨rel, h, e⟩ | ⟨j, r, rel, hm, h, e⟩)
      · exact ⟨i, p, rel, by simp, h, by rw [e]; simp⟩
      · exact ⟨j, r, rel, by simp [hm], h, e⟩
    · rintro ⟨j, r, rel, hm, h, e⟩
      rcases List.mem_cons.1 hm with hm | hm
      · cases hm; exact Or.inl ⟨rel, h, by rw [e]; simp⟩
      · exact Or.inr ⟨j, r, rel, hm, h, e⟩
end

mutual
theorem paths_nodup (pre : List Nat) : ∀ p : Passage, Valid p → ((paths pre p).map (·.1)).Nodup
  | .mk s e subs, hv => by
    cases hv with
    | mk hn hs =>
      rw [paths, List.map_append, List.nodup_append]
      refine ⟨pathsSubs_nodup pre subs hn hs, by simp, ?_⟩
      intro a ha b hb
      simp only [List.map_cons, List.map_nil, List.mem_singleton] at hb
      rw [hb]
      obtain ⟨x, hx, rfl⟩ := List.mem_map.1 ha
      obtain ⟨i, r, rel, _, _, e⟩ := (mem_pathsSubs pre subs x).1 hx
      rw [e]
      simp
theorem pathsSubs_nodup (pre : List Nat) : ∀ subs : List (Nat × Passage),
    (subs.map Prod.fst).Nodup → (∀ x ∈ subs, Valid x.2) → ((pathsSubs pre subs).map (·.1)).Nodup
  | [], _, _ => by rw [pathsSubs]; simp
  | (i, p) :: rest, hn, hs => by
    rw [List.map_cons, List.nodup_cons] at hn
    rw [pathsSubs, List.map_append, List.nodup_append]
    refine ⟨paths_nodup (pre ++ [i]) p (hs (i, p) (by simp)),
      pathsSubs_nodup pre rest hn.2 (fun x hx => hs x (by simp [hx])), ?_⟩
    rintro a ha b hb rfl
    obtain ⟨x, hx, hxa⟩ := List.mem_map.1 ha
    obtain ⟨y, hy, hya⟩ := List.mem_map.1 hb
    obtain ⟨rel, _, e⟩ := (mem_paths _ p x).1 hx
    obtain ⟨j, r, rel', hm, _, e'⟩ := (mem_pathsSubs pre rest y).1 hy
    rw [← hxa, e, e', List.append_assoc, List.append_cancel_left_eq] at hya
    simp only [List.cons_append, List.nil_append, List.cons.injEq] at hya
    apply hn.1
    rw [← hya.1]
    exact List.mem_map.2 ⟨_, hm, rfl⟩
end

theorem lessonId_inj {c : Str} {a b : List Nat} (h : lessonId c a = lessonId c b) : a = b := by
  have := tagged_inj (c := c) (ps := a.map dec) (qs := b.map dec)
    (fun p hp => by obtain ⟨n, _, rfl⟩ := List.mem_map.1 hp; exact dec_plain n)
    (fun p hp => by obtain ⟨n, _, rfl⟩ := List.mem_map.1 hp; exact dec_plain n) h
  exact List.map_injective_iff.2 (fun _ _ => dec_inj) this

theorem exerciseId_eq (c : Str) (path : List Nat) :
    lessonId c path ++ "::exercise".toList = tagged c (path.map dec ++ ["exercise".toList]) := by
  rw [← tagged_append]
  simp [lessonId, tagged]

theorem plain_parts (path : List Nat) : ∀ p ∈ path.map dec ++ ["exercise".toList], Plain p := by
  intro p hp
  rw [List.mem_append] at hp
  rcases hp with hp | hp
  · obtain ⟨n, _, rfl⟩ := List.mem_map.1 hp; exact dec_plain n
  · rw [List.mem_singleton] at hp; subst hp; unfold Plain; decide

theorem plain_path (path : List Nat) : ∀ p ∈ path.map dec, Plain p := fun p hp =>
  plain_parts path p (by simp only [List.mem_append]; exact Or.inl hp)

theorem exercise_ne_dec (n : Nat) : "exercise".toList ≠ dec n := by
  intro h
  have h1 : 'e' ∈ dec n := by rw [← h]; decide
  have := Nat.isDigit_of_mem_toDigits (by omega) (by omega) h1
  revert this
  decide

theorem lesson_ne_exercise (c : Str) (a b : List Nat) :
    lessonId c a ≠ lessonId c b ++ "::exercise".toList := by
  rw [exerciseId_eq]
  intro h
  have := tagged_inj (plain_path a) (plain_parts b) h
  have h2 : "exercise".toList ∈ a.map dec := by rw [this]; simp
  obtain ⟨n, _, e⟩ := List.mem_map.1 h2
  exact exercise_ne_dec n e.symm

theorem exerciseId_inj {c : Str} {a b : List Nat}
    (h : lessonId c a ++ "::exercise".toList = lessonId c b ++ "::exercise".toList) : a = b :=
  lessonId_inj (List.append_cancel_right h)

theorem course_ne (c : Str) (path : List Nat) (h : path ≠ []) : lessonId c path ≠ c := by
  intro e
  have : tagged c (path.map dec) = tagged c [] := by rw [tagged_nil]; exact e
  have := tagged_inj (plain_path path) (by simp) this
  exact h (List.map_eq_nil_iff.1 this)

theorem course_ne_exercise (c : Str) (path : List Nat) :
    lessonId c path ++ "::exercise".toList ≠ c := by
  intro e
  have h : tagged c (path.map dec ++ ["exercise".toList]) = tagged c [] := by
    rw [tagged_nil, ← exerciseId_eq]; exact e
  have := tagged_inj (plain_parts path) (by simp) h
  simp at this

/-! ### Properties -/

variable (lr : α) (asset : Str → Str → α) (p : Passage) (c : CourseM α γ)

/-- **C51, the lessons.**  There is a generated lesson for every passage of the tree and no other:
it belongs to the course, depends exactly on the lessons of its direct sub-passages, and has exactly
one exercise, which belongs to it and is made from the start and end of the passage. -/
theorem lessons_exact (l : LessonM α) (es : List (ExerciseM α)) :
    (l, es) ∈ (generate lr asset p c).lessons ↔ ∃ path q, At p path q ∧
      l = { id := idAt c.id path, courseId := c.id, deps := q.subs.map (fun s => idAt c.id (path ++ [s.1])),
            enc := [], sup := [], metadata := none, rest := lr } ∧
      es = [{ id := idAt c.id path ++ "::exercise".toList, lessonId := idAt c.id path, courseId := c.id,
              rest := asset q.start q.stop }] := by
  simp only [generate, helper_eq, List.mem_map, mem_paths]
  constructor
  · rintro ⟨⟨path, q⟩, ⟨rel, h, e⟩, he⟩
    simp only at e h
    subst e
    cases he
    exact ⟨rel, q, h, rfl, rfl⟩
  · rintro ⟨path, q, h, rfl, rfl⟩
    exact ⟨(0 :: path, q), ⟨path, h, rfl⟩, rfl⟩

/-- **C51, dependencies** are lessons generated for direct sub-passages. -/
theorem dependencies_generated (l : LessonM α) (es : List (ExerciseM α))
    (h : (l, es) ∈ (generate lr asset p c).lessons) (x : Str) (hx : x ∈ l.deps) :
    ∃ l' es', (l', es') ∈ (generate lr asset p c).lessons ∧ l'.id = x := by
  obtain ⟨path, q, ha, rfl, _⟩ := (lessons_exact lr asset p c l es).1 h
  obtain ⟨⟨i, r⟩, hm, rfl⟩ := List.mem_map.1 hx
  have key : ∀ {p path q}, At p path q → ∀ {i r}, (i, r) ∈ q.subs → At p (path ++ [i]) r := by
    intro p path q h
    induction h with
    | here p => intro i r hm; cases p; exact At.step hm (At.here _)
    | step h1 _ ih => intro i r hm; exact At.step h1 (ih hm)
  exact ⟨_, _, (lessons_exact lr asset p c _ _).2 ⟨path ++ [i], r, key ha hm, rfl, rfl⟩, rfl⟩

/-- **C51, distinct ids.**  The ids of the course, of all its lessons and of all their exercises are
pairwise distinct. -/
theorem ids_distinct (hv : Valid p) :
    (unitIds [(⟨c, (generate lr asset p c).lessons⟩ : Opened α γ)]).Nodup := by
  have hn := paths_nodup [0] p hv
  simp only [unitIds, List.flatMap_cons, List.flatMap_nil, List.append_nil, generate, helper_eq,
    List.flatMap_map]
  rw [List.nodup_cons]
  have h0 : ∀ x ∈ paths [0] p, x.1 ≠ [] := by
    intro x hx
    obtain ⟨rel, _, e⟩ := (mem_paths _ _ _).1 hx
    rw [e]; simp
  constructor
  · intro h
    obtain ⟨x, hx, h⟩ := List.mem_flatMap.1 h
    simp only [entry, lessonOf, exerciseOf, List.map_cons, List.map_nil, List.mem_cons,
      List.not_mem_nil, or_false] at h
    rcases h with h | h
    · exact course_ne _ _ (h0 x hx) h.symm
    · exact course_ne_exercise _ _ h.symm
  · have hnd : (paths [0] p).Nodup := List.Nodup.of_map _ hn
    refine nodup_flatMap_disjoint _ _ hnd (fun x _ => ?_) ?_
    · simp only [entry, lessonOf, exerciseOf, List.map_cons, List.map_nil, List.nodup_cons,
        List.mem_singleton, List.not_mem_nil, not_false_iff, List.nodup_nil, and_true]
      exact lesson_ne_exercise _ _ _
    · intro x hx y hy z hz hz'
      have inj : x.1 = y.1 → x = y := fun e => List.inj_on_of_nodup_map hn hx hy e
      simp only [entry, lessonOf, exerciseOf, List.map_cons, List.map_nil, List.mem_cons,
        List.not_mem_nil, or_false] at hz hz'
      rcases hz with rfl | rfl <;> rcases hz' with hz' | hz'
      · exact inj (lessonId_inj hz')
      · exact (lesson_ne_exercise _ _ _ hz').elim
      · exact (lesson_ne_exercise _ _ _ hz'.symm).elim
      · exact inj (exerciseId_inj hz')

/-- The generator meets the assumption of the library theorems. -/
theorem proper (l : LessonM α) (es : List (ExerciseM α))
    (h : (l, es) ∈ (generate lr asset p c).lessons) :
    l.courseId = c.id ∧ l.id ≠ [] ∧ ∀ e ∈ es, e.lessonId = l.id ∧ e.courseId = c.id ∧ e.id ≠ [] := by
  obtain ⟨path, q, _, rfl, rfl⟩ := (lessons_exact lr asset p c l es).1 h
  refine ⟨rfl, tagged_ne_nil (by simp), fun e he => ?_⟩
  rw [List.mem_singleton] at he
  subst he
  exact ⟨rfl, rfl, by simp⟩

/-- Depths of passages are bounded by the length of the longest path. -/
theorem depth_bound : ∃ N, ∀ path q, At p path q → path.length < N := by
  have key : ∀ l : List (List Nat × Passage), ∃ N, ∀ x ∈ l, x.1.length < N := by
    intro l
    induction l with
    | nil => exact ⟨0, by simp⟩
    | cons y l ih =>
      obtain ⟨N, hN⟩ := ih
      refine ⟨N + y.1.length + 1, fun x hx => ?_⟩
      rcases List.mem_cons.1 hx with rfl | hx
      · omega
      · have := hN x hx; omega
  obtain ⟨N, this⟩ := key (paths [] p)
  exact ⟨_, fun path q h => this (path, q) ((mem_paths [] p (path, q)).2 ⟨path, h, rfl⟩)⟩

/-- **C51, acyclic.**  A course made by the generator forms a library on its own: ids are distinct, no
unit depends on itself and there is no cycle, as long as the course manifest does not refer to the
course itself and its weights are valid. -/
theorem acceptable (hv : Valid p)
    (hc : c.id ∉ c.deps ∧ (∀ w, (c.id, w) ∉ c.enc) ∧ c.id ∉ c.sup)
    (hcw : ∀ e ∈ c.enc, 0 ≤ e.2 ∧ e.2 ≤ 1) :
    Acceptable [(⟨c, (generate lr asset p c).lessons⟩ : Opened α γ)] := by
  classical
  obtain ⟨N, hN⟩ := depth_bound p
  let rank : Str → Nat := fun u =>
    if h : ∃ path q, At p path q ∧ idAt c.id path = u then N - h.choose.length else 0
  have hrank : ∀ path q, At p path q → rank (idAt c.id path) = N - path.length := by
    intro path q h
    have hex : ∃ path' q', At p path' q' ∧ idAt c.id path' = idAt c.id path := ⟨path, q, h, rfl⟩
    simp only [rank]
    rw [dif_pos hex]
    obtain ⟨q', _, e⟩ := hex.choose_spec
    have := lessonId_inj e
    simp only [List.cons.injEq, true_and] at this
    rw [this]
  refine acceptable_single c _ (ids_distinct lr asset p c hv) rank (fun _ => 0) ?_ ?_ ?_ hc hcw
  · rintro ⟨l, es⟩ hx v hvv
    obtain ⟨path, q, ha, rfl, _⟩ := (lessons_exact lr asset p c l es).1 hx
    rcases hvv with hvv | ⟨w, hvv⟩
    · obtain ⟨l', es', hm, rfl⟩ := dependencies_generated lr asset p c _ es hx v hvv
      obtain ⟨path', q', ha', rfl, _⟩ := (lessons_exact lr asset p c l' es').1 hm
      refine ⟨course_ne _ _ (by simp), ?_⟩
      obtain ⟨⟨i, r⟩, _, e⟩ := List.mem_map.1 hvv
      have e' := lessonId_inj e
      simp only [List.cons.injEq, true_and] at e'
      simp only
      rw [hrank _ _ ha, hrank _ _ ha', ← e']
      have := hN _ _ ha
      simp only [List.length_append, List.length_cons, List.length_nil]
      omega
    · simp at hvv
  · rintro ⟨l, es⟩ hx v hvv
    obtain ⟨path, q, ha, rfl, _⟩ := (lessons_exact lr asset p c l es).1 hx
    simp at hvv
  · rintro ⟨l, es⟩ hx e he
    obtain ⟨path, q, ha, rfl, _⟩ := (lessons_exact lr asset p c l es).1 hx
    simp at he

/-- A piece with two passages, the first of which has two parts. -/
def samplePassage : Passage :=
  .mk ['a'] ['e'] [(2, .mk ['a'] ['c'] [(0, .mk ['a'] ['b'] []), (13, .mk ['b'] ['c'] [])]),
    (5, .mk ['d'] ['e'] [])]

example : Valid samplePassage := by
  have leaf : ∀ s e : Str, Valid (.mk s e []) := fun s e => .mk (by simp) (by simp)
  refine .mk (by decide) ?_
  intro x hx
  simp only [List.mem_cons, List.not_mem_nil, or_false] at hx
  rcases hx with rfl | rfl
  · refine .mk (by decide) ?_
    intro x hx
    simp only [List.mem_cons, List.not_mem_nil, or_false] at hx
    rcases hx with rfl | rfl <;> exact leaf _ _
  · exact leaf _ _

/-- The ids and dependencies generated for it. -/
example : ((generate () (fun _ _ => ()) samplePassage
      (⟨['c'], [], [], [], none, none, some (), ()⟩ : CourseM Unit Unit)).lessons.map
        (fun x => (x.1.id, x.1.deps, x.2.map (·.id)))) =
    [ ("c::0::2::0".toList, [], ["c::0::2::0::exercise".toList]),
      ("c::0::2::13".toList, [], ["c::0::2::13::exercise".toList]),
      ("c::0::2".toList, ["c::0::2::0".toList, "c::0::2::13".toList], ["c::0::2::exercise".toList]),
      ("c::0::5".toList, [], ["c::0::5::exercise".toList]),
      ("c::0".toList, ["c::0::2".toList, "c::0::5".toList], ["c::0::exercise".toList]) ] := by
  decide +kernel

end Trane.Gen.Music
