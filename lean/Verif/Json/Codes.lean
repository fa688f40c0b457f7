import Verif.Json.Serde

/-!
# Lemmas: what is written is read back, type by type
-/

namespace Trane.Json
open Trane.Store (Str)
open Trane.Filters

/-- The values in `V` are read back from what is written, which is a proper JSON value that is nested at
most `k` deep. -/
def Codes {α : Type} (e : α → Json) (d : Json → Option α) (V : α → Prop) (k : Nat) : Prop :=
  ∀ x, V x → d (e x) = some x ∧ Proper (e x) ∧ depth (e x) ≤ k

theorem Codes.mono {α : Type} {e : α → Json} {d : Json → Option α} {V W : α → Prop} {k l : Nat}
    (h : Codes e d V k) (hw : ∀ x, W x → V x) (hk : k ≤ l) : Codes e d W l :=
  fun x hx => ⟨(h x (hw x hx)).1, (h x (hw x hx)).2.1, le_trans (h x (hw x hx)).2.2 hk⟩

/-! ### Parts of values -/

theorem properItems_iff : ∀ xs : List Json, ProperItems xs ↔ ∀ x ∈ xs, Proper x
  | [] => by simp [ProperItems]
  | x :: xs => by simp [ProperItems, properItems_iff xs]

theorem properFields_iff : ∀ fs : List (Str × Json), ProperFields fs ↔ ∀ f ∈ fs, Proper f.2
  | [] => by simp [ProperFields]
  | (k, v) :: fs => by simp [ProperFields, ProperField, properFields_iff fs]

theorem depthItems_le : ∀ (xs : List Json) (n : Nat), depthItems xs ≤ n ↔ ∀ x ∈ xs, depth x ≤ n
  | [], n => by simp [depthItems]
  | x :: xs, n => by simp [depthItems, depthItems_le xs]

theorem depthFields_le : ∀ (fs : List (Str × Json)) (n : Nat), depthFields fs ≤ n ↔ ∀ f ∈ fs, depth f.2 ≤ n
  | [], n => by simp [depthFields]
  | (k, v) :: fs, n => by simp [depthFields, depthField, depthFields_le fs]

/-- Two members of the list have the same first component only if they are at the same place. -/
theorem filter_at : ∀ (names : List Str) (vals : List Json) (i : Nat) (k : Str) (v : Json), names.Nodup →
    names[i]? = some k → vals[i]? = some v → (names.zip vals).filter (fun e => e.1 = k) = [(k, v)]
  | [], _, i, _, _, _, h, _ => by simp at h
  | _ :: _, [], i, _, _, _, _, h => by simp at h
  | n :: ns, x :: xs, 0, k, v, hn, h1, h2 => by
    simp only [List.getElem?_cons_zero, Option.some.injEq] at h1 h2
    subst h1; subst h2
    rw [List.zip_cons_cons, List.filter_cons_of_pos (by simp)]
    congr 1
    rw [List.filter_eq_nil_iff]
    intro e he
    have := (List.of_mem_zip he).1
    simp only [decide_eq_true_eq]
    rintro rfl
    exact (List.nodup_cons.mp hn).1 this
  | n :: ns, x :: xs, i + 1, k, v, hn, h1, h2 => by
    simp only [List.getElem?_cons_succ] at h1 h2
    have hne : n ≠ k := by
      rintro rfl
      exact (List.nodup_cons.mp hn).1 (List.mem_of_getElem? h1)
    rw [List.zip_cons_cons, List.filter_cons_of_neg (by simpa using hne)]
    exact filter_at ns xs i k v (List.nodup_cons.mp hn).2 h1 h2

theorem field_at {α : Type} {names : List Str} {vals : List Json} (i : Nat) {k : String} {v : Json}
    {d : Json → Option α} {m : Option α} {x : α} (hn : names.Nodup) (h1 : names[i]? = some k.toList)
    (h2 : vals[i]? = some v) (h : d v = some x) : field (names.zip vals) k d m = some x := by
  unfold field
  rw [filter_at names vals i _ v hn h1 h2]
  exact h

theorem struct_proper {names : List Str} {vals : List Json} (h : ∀ v ∈ vals, Proper v) :
    Proper (encStruct names vals) := by
  unfold encStruct
  rw [Proper, properFields_iff]
  intro f hf
  exact h _ (List.of_mem_zip hf).2

theorem struct_depth {names : List Str} {vals : List Json} {k : Nat} (h : ∀ v ∈ vals, depth v ≤ k) :
    depth (encStruct names vals) ≤ k + 1 := by
  unfold encStruct
  rw [depth]
  have := (depthFields_le (names.zip vals) k).mpr (fun f hf => h _ (List.of_mem_zip hf).2)
  omega

theorem data_proper {n : String} {v : Json} (h : Proper v) : Proper (encData n v) := by
  unfold encData; rw [Proper, properFields_iff]; simpa using h

theorem data_depth (n : String) (v : Json) : depth (encData n v) = depth v + 1 := by
  unfold encData; rw [depth, depthFields, depthField, depthFields]; simp

theorem unit_proper (n : String) : Proper (encUnit n) := by unfold encUnit; rw [Proper] <;> simp

theorem unit_depth (n : String) : depth (encUnit n) = 0 := by unfold encUnit; rw [depth] <;> simp

theorem find_at {α : Type} : ∀ (cases : List (String × α)) (i : Nat) (n : String) (c : α),
    (cases.map (fun c => c.1.toList)).Nodup → cases[i]? = some (n, c) →
    cases.find? (fun c => c.1.toList = n.toList) = some (n, c)
  | [], i, _, _, _, h => by simp at h
  | e :: es, 0, n, c, hn, h => by
    simp only [List.getElem?_cons_zero, Option.some.injEq] at h
    subst h
    rw [List.find?_cons_of_pos]; simp
  | e :: es, i + 1, n, c, hn, h => by
    simp only [List.getElem?_cons_succ] at h
    rw [List.map_cons, List.nodup_cons] at hn
    rw [List.find?_cons_of_neg]
    · exact find_at es i n c hn.2 h
    · simp only [decide_eq_true_eq]
      intro he
      apply hn.1
      rw [he]
      exact List.mem_map.mpr ⟨(n, c), List.mem_of_getElem? h, rfl⟩

theorem pick_data {α : Type} {cases : List (String × (Option Json → Option α))} (i : Nat) {n : String}
    {v : Json} {d : Json → Option α} {x : α} (hn : (cases.map (fun c => c.1.toList)).Nodup)
    (h : cases[i]? = some (n, dataCase d)) (hd : d v = some x) : pick (encData n v) cases = some x := by
  unfold pick encData variant
  dsimp only
  rw [find_at cases i n _ hn h]
  exact hd

theorem pick_unit {α : Type} {cases : List (String × (Option Json → Option α))} (i : Nat) {n : String} {x : α}
    (hn : (cases.map (fun c => c.1.toList)).Nodup) (h : cases[i]? = some (n, unitCase x)) :
    pick (encUnit n) cases = some x := by
  unfold pick encUnit variant
  dsimp only
  rw [find_at cases i n _ hn h]
  rfl

/-! ### The building blocks -/

theorem codes_str : Codes encStr decStr (fun _ => True) 0 :=
  fun x _ => ⟨rfl, by unfold encStr; rw [Proper] <;> simp, by unfold encStr; rw [depth] <;> simp⟩

theorem codes_bool : Codes encBool decBool (fun _ => True) 0 :=
  fun x _ => ⟨rfl, by unfold encBool; rw [Proper] <;> simp, by unfold encBool; rw [depth] <;> simp⟩

theorem toDigits_isDigits (n : Nat) : isDigits (Nat.toDigits 10 n) = true := by
  simp only [isDigits, Bool.and_eq_true, List.all_eq_true]
  refine ⟨?_, fun c hc => Nat.isDigit_of_mem_toDigits (by omega) (by omega) hc⟩
  simp

theorem natOf_toDigits {n b : Nat} (h : n < b) : natOf b (Nat.toDigits 10 n) = some n := by
  unfold natOf
  rw [Nat.ofDigitChars_toDigits (by omega) (by omega), if_pos ⟨toDigits_isDigits n, h⟩]

theorem isNum_of_digits {c : Char} {s : Str} (hc : c ≠ '0') (h : isDigits (c :: s) = true) :
    isNum (c :: s) = true := by
  have hall : ∀ e ∈ c :: s, e.isDigit = true := by
    simp only [isDigits, Bool.and_eq_true, List.all_eq_true] at h; exact h.2
  have hm : c ≠ '-' := by rintro rfl; have := hall '-' (by simp); revert this; decide
  unfold isNum
  split
  · rename_i heq; cases heq; exact absurd rfl hm
  · unfold isUnsigned
    split
    · rename_i heq; cases heq; exact absurd rfl hc
    · have h1 : (c :: s).takeWhile Char.isDigit = c :: s := by
        simpa using List.takeWhile_append_of_pos (l₂ := []) hall
      have h2 : (c :: s).dropWhile Char.isDigit = [] := by
        simpa using List.dropWhile_append_of_pos (l₂ := []) hall
      rw [h1, h2, h]
      rfl

theorem toDigits_head : ∀ n : Nat, n ≠ 0 → ∃ c s, Nat.toDigits 10 n = c :: s ∧ c ≠ '0' := by
  intro n
  induction n using Nat.strongRecOn with
  | ind n ih =>
    intro hn
    by_cases h : n < 10
    · have : ∀ m, m < 10 → m ≠ 0 → ∃ c s, Nat.toDigits 10 m = c :: s ∧ c ≠ '0' := by
        intro m hm h0
        have : m = 1 ∨ m = 2 ∨ m = 3 ∨ m = 4 ∨ m = 5 ∨ m = 6 ∨ m = 7 ∨ m = 8 ∨ m = 9 := by omega
        rcases this with rfl | rfl | rfl | rfl | rfl | rfl | rfl | rfl | rfl <;>
          exact ⟨_, _, rfl, by decide⟩
      exact this n h hn
    · obtain ⟨c, s, h1, h2⟩ := ih (n / 10) (by omega) (by omega)
      refine ⟨c, s ++ Nat.toDigits 10 (n % 10), ?_, h2⟩
      rw [← List.cons_append, ← h1, Nat.toDigits_append_toDigits (by omega) (by omega) (by omega)]
      congr 1; omega

theorem toDigits_isNum (n : Nat) : isNum (Nat.toDigits 10 n) = true := by
  by_cases h : n = 0
  · subst h; decide
  · obtain ⟨c, s, h1, h2⟩ := toDigits_head n h
    have := toDigits_isDigits n
    rw [h1] at this ⊢
    exact isNum_of_digits h2 this

theorem codes_nat (b : Nat) : Codes encNat (decNat b) (fun n => n < b) 0 := by
  intro n hn
  unfold encNat
  refine ⟨natOf_toDigits hn, ?_, ?_⟩
  · rw [Proper]; exact toDigits_isNum n
  · rw [depth] <;> simp

theorem codes_opt {α : Type} {e : α → Json} {d : Json → Option α} {V : α → Prop} {k : Nat} (h : Codes e d V k)
    (hn : ∀ x, e x ≠ .null) : Codes (encOpt e) (decOpt d) (fun o => ∀ x ∈ o, V x) k := by
  intro o ho
  cases o with
  | none => exact ⟨rfl, by unfold encOpt; rw [Proper] <;> simp, by unfold encOpt; rw [depth] <;> simp⟩
  | some x =>
    obtain ⟨h1, h2, h3⟩ := h x (ho x rfl)
    refine ⟨?_, h2, h3⟩
    unfold encOpt decOpt
    split
    · rename_i heq; exact absurd heq (hn x)
    · rw [h1]; rfl

theorem mapM_map {α : Type} {e : α → Json} {d : Json → Option α} : ∀ xs : List α, (∀ x ∈ xs, d (e x) = some x) →
    (xs.map e).mapM d = some xs
  | [], _ => rfl
  | x :: xs, h => by
    rw [List.map_cons, List.mapM_cons, h x (by simp), mapM_map xs (fun y hy => h y (by simp [hy]))]
    rfl

theorem codes_list {α : Type} {e : α → Json} {d : Json → Option α} {V : α → Prop} {k : Nat} (h : Codes e d V k) :
    Codes (encList e) (decList d) (fun xs => ∀ x ∈ xs, V x) (k + 1) := by
  intro xs hx
  unfold encList
  refine ⟨mapM_map xs (fun x hm => (h x (hx x hm)).1), ?_, ?_⟩
  · rw [Proper, properItems_iff]
    intro y hy
    obtain ⟨x, hm, rfl⟩ := List.mem_map.mp hy
    exact (h x (hx x hm)).2.1
  · rw [depth]
    have := (depthItems_le (xs.map e) k).mpr (fun y hy => by
      obtain ⟨x, hm, rfl⟩ := List.mem_map.mp hy
      exact (h x (hx x hm)).2.2)
    omega

theorem codes_pair {α β : Type} {e : α → Json} {d : Json → Option α} {V : α → Prop} {e' : β → Json}
    {d' : Json → Option β} {W : β → Prop} {k : Nat} (h : Codes e d V k) (h' : Codes e' d' W k) :
    Codes (encPair e e') (decPair d d') (fun p => V p.1 ∧ W p.2) (k + 1) := by
  intro p ⟨h1, h2⟩
  have a := h _ h1
  have b := h' _ h2
  unfold encPair
  refine ⟨?_, ?_, ?_⟩
  · simp [decPair, a.1, b.1]
  · rw [Proper, properItems_iff]; simp [a.2.1, b.2.1]
  · rw [depth]
    have := (depthItems_le [e p.1, e' p.2] k).mpr (by simp [a.2.2, b.2.2])
    omega

theorem codes_float {F : Type} (fl : Floats F) :
    Codes (encFloat fl) (decFloat fl) (fun x => (fl.text x).isSome) 0 := by
  intro x hx
  obtain ⟨t, ht⟩ := Option.isSome_iff_exists.mp hx
  unfold encFloat
  rw [ht]
  refine ⟨fl.read_text x t ht, ?_, ?_⟩
  · rw [Proper]; exact fl.text_num x t ht
  · rw [depth] <;> simp

theorem put_new {κ α : Type} [DecidableEq κ] : ∀ (m : List (κ × α)) (k : κ) (v : α), k ∉ m.map Prod.fst →
    AMap.put m k v = m ++ [(k, v)]
  | [], _, _, _ => rfl
  | (k', v') :: m, k, v, h => by
    simp only [List.map_cons, List.mem_cons, not_or] at h
    rw [AMap.put, if_neg (fun e => h.1 e.symm), put_new m k v h.2]
    rfl

theorem foldlM_put {κ α : Type} [DecidableEq κ] {k : κ → Str} {k' : Str → Option κ} {e : α → Json}
    {d : Json → Option α} : ∀ (m acc : List (κ × α)), (∀ p ∈ m, k' (k p.1) = some p.1 ∧ d (e p.2) = some p.2) →
    ((acc ++ m).map Prod.fst).Nodup →
    (m.map (fun p => (k p.1, e p.2))).foldlM
      (fun m f => do some (AMap.put m (← k' f.1) (← d f.2))) acc = some (acc ++ m)
  | [], acc, _, _ => by simp
  | p :: m, acc, h, hn => by
    have hp := h p (by simp)
    rw [List.map_cons, List.foldlM_cons]
    simp only [hp.1, hp.2, Option.bind_eq_bind, Option.bind_some]
    rw [put_new]
    · have := foldlM_put (k := k) (k' := k') (e := e) (d := d) m (acc ++ [p])
        (fun q hq => h q (by simp [hq])) (by rw [List.append_assoc]; exact hn)
      simp only [List.append_assoc, List.singleton_append, Option.bind_eq_bind] at this
      exact this
    · rw [List.map_append, List.nodup_append] at hn
      intro hc
      exact hn.2.2 _ hc _ (by simp) rfl

theorem codes_map {κ α : Type} [DecidableEq κ] {k : κ → Str} {k' : Str → Option κ} {K : κ → Prop}
    (hk : ∀ x, K x → k' (k x) = some x) {e : α → Json}
    {d : Json → Option α} {V : α → Prop} {n : Nat} (h : Codes e d V n) :
    Codes (encMap k e) (decMap k' d) (fun m => (m.map Prod.fst).Nodup ∧ ∀ p ∈ m, K p.1 ∧ V p.2) (n + 1) := by
  intro m ⟨hn, hm⟩
  unfold encMap
  refine ⟨?_, ?_, ?_⟩
  · unfold decMap
    have := foldlM_put (k := k) (k' := k') (e := e) (d := d) m []
      (fun p hp => ⟨hk _ (hm p hp).1, (h _ (hm p hp).2).1⟩) (by simpa using hn)
    simpa using this
  · rw [Proper, properFields_iff]
    intro f hf
    obtain ⟨p, hp, rfl⟩ := List.mem_map.mp hf
    exact (h _ (hm p hp).2).2.1
  · rw [depth]
    have := (depthFields_le (m.map (fun p => (k p.1, e p.2))) n).mpr (fun f hf => by
      obtain ⟨p, hp, rfl⟩ := List.mem_map.mp hf
      exact (h _ (hm p hp).2).2.2)
    omega

theorem keyNat_toDigits (n : Nat) (h : n < usizeSize) : keyNat (Nat.toDigits 10 n) = some n := by
  unfold keyNat
  rw [if_pos (toDigits_isNum n), natOf_toDigits h]

end Trane.Json
