import Verif.Sched.OverlayProps
import Verif.Sched.UnitCache

/-! Helper lemmas for C111: caches that hold nothing out of date answer like empty ones. -/

namespace Trane.UnitScorer

variable {ι R T W : Type} [DecidableEq ι] [Field R] [LinearOrder R]

/-- With coherent caches the answers are those of the specification. -/
theorem answers_coh {w : World ι R T W} {c : Caches ι R} (hc : Coh Everything w c) :
    (∀ u v, Answers w c u v ↔ ∃ k, scoreP w k u = some v) ∧
    (∀ l v, AnswersLessonTrials w c l v ↔ v = lessonTrialsP w l) ∧
    (∀ u v, AnswersCourseTrials w c u v ↔ ∃ k, courseTrialsP w k u = some v) ∧
    (∀ u b, AnswersSuperseded w c u b ↔ ∃ k, checkP w (scoreP w k) k u = some b) := by
  refine ⟨fun u v => ⟨?_, ?_⟩, fun l v => ⟨?_, ?_⟩, fun u v => ⟨?_, ?_⟩, fun u b => ⟨?_, ?_⟩⟩
  · rintro ⟨n, c', h⟩
    exact (snd_score w n u c v c' hc h).2
  · rintro ⟨k, hk⟩
    obtain ⟨c', h, -⟩ := sim_score Everything w (closed_everything _) k u trivial v hk c hc
    exact ⟨k, c', h⟩
  · rintro ⟨c', h⟩
    obtain ⟨c1, h1, -⟩ := sim_lessonTrials Everything w l _ rfl c hc
    rw [h1] at h
    exact (congrArg Prod.fst (Option.some.inj h)).symm
  · rintro rfl
    obtain ⟨c1, h1, -⟩ := sim_lessonTrials Everything w l _ rfl c hc
    exact ⟨c1, h1⟩
  · rintro ⟨n, c', h⟩
    exact (snd_courseTrials w n u c v c' hc h).2
  · rintro ⟨k, hk⟩
    obtain ⟨c', h, -⟩ := sim_courseTrials Everything w (closed_everything _) k u trivial v hk c hc
    exact ⟨k, c', h⟩
  · rintro ⟨n, c', h⟩
    exact (snd_check w (fun u => snd_score w n u) n u c b c' hc h).2
  · rintro ⟨k, hk⟩
    obtain ⟨c', h, -⟩ := sim_check Everything w (closed_everything _)
      (fun u _ => sim_score Everything w (closed_everything _) k u trivial) k u trivial b hk c hc
    exact ⟨k, c', h⟩

theorem same_of_coh {w : World ι R T W} {c : Caches ι R} (hc : Coh Everything w c) : SameAnswers w {} c := by
  obtain ⟨a1, a2, a3, a4⟩ := answers_coh hc
  obtain ⟨b1, b2, b3, b4⟩ := answers_coh (coh_empty Everything w)
  exact ⟨fun u v => (b1 u v).trans (a1 u v).symm, fun u v => (b2 u v).trans (a2 u v).symm,
    fun u v => (b3 u v).trans (a3 u v).symm, fun u v => (b4 u v).trans (a4 u v).symm⟩

/-- Where nothing supersedes anything, coherence for the units that nothing supersedes is coherence. -/
theorem coh_everything {w : World ι R T W} {c : Caches ι R} (h : ∀ u, Plain w.graph u) (hc : Coh (Plain w.graph) w c) :
    Coh Everything w c :=
  ⟨hc.ex, fun l v _ => hc.les l v (h l), fun u v _ => hc.cou u v (h u), hc.lesT, fun u v _ => hc.couT u v (h u)⟩

end Trane.UnitScorer
