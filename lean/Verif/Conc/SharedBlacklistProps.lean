import Verif.Conc.SharedBlacklistSpec
import Verif.Conc.ObjectLemmas

/-! # C116: the blacklist used by several threads -/

namespace Trane.Threads
open Trane.Conc (Mode)
open Trane.Store

/-- Cache and table agree, and the table is `l`. -/
def StandsFor (b : Blacklist) (l : List Str) : Prop := b.Inv ∧ b.db = l

theorem inv_put_false {b : Blacklist} (h : b.Inv) {u : Str} (hu : u ∉ b.db) : Blacklist.Inv { b with cache := b.cache.put u false } := by
  refine ⟨fun v => ?_, h.nodup⟩
  simp only [AMap.find_put]
  by_cases hv : u = v
  · subst hv; simp [hu]
  · simp only [hv, if_false]; exact h.agree v

theorem will_hasEntry {Q : Blacklist → BAns → Prop} {b : Blacklist} (h : b.Inv) (u : Str) (next : Bool → Prog Blacklist BAns)
    (hn : ∀ b', b'.Inv → b'.db = b.db → (next (decide (u ∈ b.db))).Will Q b') : (hasEntryCode u next).Will Q b := by
  unfold hasEntryCode
  simp only [Prog.Will, id]
  have hf := h.find u
  cases hc : b.cache.find u with
  | some v =>
    have hv : v = decide (u ∈ b.db) := by
      rw [hc] at hf
      cases v <;> simp_all
    subst hv
    exact hn b h rfl
  | none =>
    have hu : u ∉ b.db := fun hu => by rw [hf.2 hu] at hc; cases hc
    have := hn _ (inv_put_false h hu) rfl
    rw [decide_eq_false hu] at this
    exact this

theorem will_removeRows {Q : Blacklist → BAns → Prop} (us : List Str) (next : Prog Blacklist BAns) (b : Blacklist) :
    (removeRowsCode us next).Will Q b ↔ next.Will Q (us.foldl Blacklist.removeRow b) := by
  induction us generalizing b with
  | nil => exact Iff.rfl
  | cons u us ih => exact ih _

theorem refines_blacklist : Refines sharedBlacklist plainBlacklist StandsFor := by
  constructor
  · rintro k hk b l ⟨h, rfl⟩
    cases k with
    | add u f =>
      refine will_hasEntry h u _ ?_
      intro b' h' hdb
      by_cases hu : u ∈ b.db
      · simp only [hu, decide_true, if_true, Prog.Will, plainBlacklist]
        exact ⟨⟨h', hdb⟩, trivial⟩
      · have hu' : u ∉ b'.db := by rw [hdb]; exact hu
        cases f with
        | true =>
          simp only [hu, decide_false, Bool.false_eq_true, if_false, Prog.Will, plainBlacklist, Bool.true_or, if_true]
          exact ⟨⟨h', hdb⟩, trivial⟩
        | false =>
          simp only [hu, hu', decide_false, Bool.false_eq_true, if_false, Prog.Will, plainBlacklist, Bool.false_or]
          refine ⟨⟨⟨fun x => ?_, ?_⟩, by rw [hdb]⟩, trivial⟩
          · simp only [AMap.find_put, List.mem_append, List.mem_singleton]
            by_cases hx : u = x
            · simp [hx]
            · simp only [hx, if_false, Ne.symm hx, or_false]; exact h'.agree x
          · refine List.nodup_append.2 ⟨h'.nodup, by simp, ?_⟩
            intro a ha c hc hac
            rw [List.mem_singleton] at hc
            subst hc hac
            exact hu' ha
    | remove u f =>
      cases f with
      | true => exact ⟨⟨h, rfl⟩, rfl⟩
      | false => exact ⟨⟨Blacklist.inv_removeRow b u h, rfl⟩, rfl⟩
    | removePrefix p f =>
      simp only [sharedBlacklist, blacklistCode, Prog.Will, id]
      cases f with
      | none =>
        simp only [will_removeRows, Prog.Will, plainBlacklist]
        obtain ⟨h1, h2⟩ := Blacklist.foldl_removeRow b (b.db.filter (likePrefix p)) h
        refine ⟨⟨h1, ?_⟩, trivial⟩
        rw [h2]
        refine List.filter_congr fun x hx => ?_
        cases hp : likePrefix p x <;> simp [hx, hp]
      | some n =>
        simp only [will_removeRows, Prog.Will, plainBlacklist]
        obtain ⟨h1, h2⟩ := Blacklist.foldl_removeRow b ((b.db.filter (likePrefix p)).take n) h
        exact ⟨⟨h1, h2⟩, trivial⟩
    | blacklisted u => cases hk
    | entries => cases hk
  · intro k hk l
    cases k with
    | add | remove | removePrefix => cases hk
    | blacklisted | entries => rfl
  · intro k hk l
    cases k with
    | add | remove | removePrefix => cases hk
    | blacklisted u =>
      rintro b ⟨h, rfl⟩
      refine ⟨⟨h, rfl⟩, ?_⟩
      have hf := h.find u
      cases hc : b.cache.find u with
      | some v =>
        rw [hc] at hf
        dsimp only
        rw [hc]
        change BAns.member v = BAns.member (decide (u ∈ b.db))
        cases v <;> simp_all
      | none =>
        have hu : u ∉ b.db := fun hu => by rw [hf.2 hu] at hc; cases hc
        dsimp only
        rw [hc]
        rintro b' ⟨h', hdb⟩
        refine ⟨⟨inv_put_false h' (by rw [hdb]; exact hu), hdb⟩, ?_⟩
        simp [Prog.Safe, plainBlacklist, hu]
    | entries =>
      rintro b ⟨h, rfl⟩
      exact ⟨⟨h, rfl⟩, rfl⟩

/-- **C116.** Open the blacklist of a database and let any number of threads make any calls, interleaved in any way between the steps of
the calls: every thread's calls take effect in its order, every answer is the one that results from making the calls one after another
in the order in which they returned, and whenever no call is under way the database holds the ids that this order leaves. -/
theorem blacklist_shared (db : List Str) (hdb : db.Nodup) (calls : List (List BCall)) (schedule : List Nat) {s : Shared Blacklist BCall BAns}
    (hs : sharedBlacklist.exec (Shared.start (Blacklist.openDb db) calls) schedule = some s) :
    InOrder calls s ∧ Sequential plainBlacklist db s.log ∧
    ((∀ c ∈ s.clients, c.inside = none) → s.data.db = after1 plainBlacklist db s.log) := by
  obtain ⟨h1, h2, h3⟩ := one_after_another refines_blacklist (t0 := db) ⟨Blacklist.inv_open db hdb, rfl⟩ calls schedule hs
  exact ⟨h1, h2, fun hn => (h3 hn).2⟩

/-- Two threads that ask for `a` and `b` while a third puts `a` on the blacklist and takes `b` off it. -/
def threeThreads : List (List BCall) := [[.blacklisted ['a'], .blacklisted ['b']], [.blacklisted ['a'], .entries],
  [.add ['a'] false, .remove ['b'] false]]

/-- Both look into the cache before either writes to it; then the third thread adds, and they ask again. -/
def threeSchedule : List Nat := [0, 1, 0, 1, 1, 0, 1, 0, 2, 2, 2, 2, 2, 0, 1, 0, 1, 0, 1, 2, 2, 2, 2]

example : (sharedBlacklist.exec (Shared.start (Blacklist.openDb [['b']]) threeThreads) threeSchedule).map (fun s => (s.log, s.data.db)) =
    some ([(1, .blacklisted ['a'], .member false), (0, .blacklisted ['a'], .member false), (2, .add ['a'] false, .done true),
      (0, .blacklisted ['b'], .member true), (1, .entries, .listing [['b'], ['a']]), (2, .remove ['b'] false, .done true)],
      [['a']]) := by decide +kernel

/-- The object without the outer lock: everybody may always go on. -/
def unlockedBlacklist : Obj Blacklist BCall BAns := ⟨fun _ => .read, blacklistCode⟩

/-- **C116**, why the lock around the whole call is needed: with the two inner locks alone, a thread that asks while another adds the id
leaves a wrong entry in the cache, and from then on the id counts as not blacklisted although it is in the database. -/
theorem inner_locks_not_enough : ∃ (calls : List (List BCall)) (schedule : List Nat) (s : Shared Blacklist BCall BAns),
    unlockedBlacklist.exec (Shared.start (Blacklist.openDb []) calls) schedule = some s ∧ (∀ c ∈ s.clients, c.inside = none) ∧
    ¬ Sequential plainBlacklist [] s.log ∧ ['a'] ∈ s.data.db ∧ s.data.blacklisted ['a'] = false := by
  refine ⟨[[.blacklisted ['a'], .blacklisted ['a']], [.add ['a'] false]], [0, 0, 1, 1, 1, 1, 1, 1, 0, 0, 0, 0, 0], _, rfl, ?_, ?_, ?_, ?_⟩
  · decide +kernel
  · have : ∀ (l : List (Nat × BCall × BAns)), l = [(1, .add ['a'] false, .done true), (0, .blacklisted ['a'], .member false),
        (0, .blacklisted ['a'], .member false)] → ¬ Sequential plainBlacklist [] l := by
      rintro l rfl
      simp only [Sequential]
      decide +kernel
    exact this _ (by decide +kernel)
  · decide +kernel
  · decide +kernel

end Trane.Threads
