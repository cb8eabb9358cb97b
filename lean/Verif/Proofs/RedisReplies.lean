import Verif.Proofs.RedisActors
import Verif.Proofs.JsonSound
import Verif.Proofs.Redis

/-!
# Which reply an answer comes from
-/

namespace MCap
open Spec

theorem rRun_append (s : RSys) (a b : List RStep) :
    rRun s (a ++ b) = ((rRun (rRun s a).1 b).1, (rRun s a).2 ++ (rRun (rRun s a).1 b).2) := by
  induction a generalizing s with
  | nil => simp [rRun]
  | cons x a ih => simp only [List.cons_append, rRun, ih, List.append_assoc]

/-- Every event stems from a step. -/
theorem rEvent_at (s : RSys) (steps : List RStep) (e : REvent) (h : e ∈ (rRun s steps).2) :
    ∃ pre x post, steps = pre ++ x :: post ∧ e ∈ (rStep (rRun s pre).1 x).2 := by
  induction steps generalizing s with
  | nil => cases h
  | cons x r ih =>
    rcases List.mem_append.1 h with h | h
    · exact ⟨[], x, r, rfl, h⟩
    · obtain ⟨pre, y, post, rfl, hy⟩ := ih _ h
      exact ⟨x :: pre, y, post, rfl, hy⟩

/-- An answer is given on the spot, or when the reply arrives. -/
theorem rStep_answered {s : RSys} {x : RStep} {a i : Nat} {m : RMsg} {ans : RAnswer} (h : .answered a i m ans ∈ (rStep s x).2) :
    (x = .take a ∧ m.immediate = true ∧ ans = .unit (.ok ())) ∨
    ∃ r y, x = .reply a r ∧ s.actors[a]? = some y ∧ y.busy = some (i, m) ∧ m.answer r = .ret ans ∧ (rStep s x).2 = [.answered a i m ans] := by
  cases x with
  | send b m' =>
    simp only [rStep] at h
    split at h
    · cases h
    · split at h <;> simp at h
  | take b =>
    simp only [rStep] at h
    split at h
    · cases h
    · split at h
      · unfold RSys.onTake at h
        split at h
        · simp at h
        · split at h
          · rename_i him
            simp only [List.mem_singleton, REvent.answered.injEq] at h
            obtain ⟨rfl, rfl, rfl, rfl⟩ := h
            exact .inl ⟨rfl, him, rfl⟩
          · split at h <;> simp at h
      · cases h
  | reply b r =>
    simp only [rStep] at h
    split at h
    · cases h
    · rename_i y hy
      split at h
      · rename_i j m' hb
        unfold RSys.onReply at h
        split at h
        · simp at h
        · rename_i ans' ha
          split at h
          · simp at h
          · rename_i hn
            simp only [List.mem_singleton, REvent.answered.injEq] at h
            obtain ⟨rfl, rfl, rfl, rfl⟩ := h
            refine .inr ⟨r, y, rfl, hy, hb, ha, ?_⟩
            simp only [rStep, hy, hb, RSys.onReply, ha, if_neg hn]
      · cases h
  | drop j => cases h

/-- A panic of a handler comes when the message is taken, or when its reply arrives. -/
theorem rStep_crashed {s : RSys} {x : RStep} {a i : Nat} {w : Panic} (h : .crashed a i w ∈ (rStep s x).2) :
    (∃ m y, x = .take a ∧ s.actors[a]? = some y ∧ (i, m) ∈ y.inbox ∧ ((m.todo = true ∧ w = .explicit) ∨ w = .alreadyBorrowed)) ∨
    ∃ r y m, x = .reply a r ∧ s.actors[a]? = some y ∧ y.busy = some (i, m) ∧
      (m.answer r = .panic w ∨ (m.needsReceiver = true ∧ i ∈ s.gone ∧ w = .unwrapErr)) := by
  cases x with
  | send b m' =>
    simp only [rStep] at h
    split at h
    · cases h
    · split at h <;> simp at h
  | take b =>
    simp only [rStep] at h
    split at h
    · cases h
    · rename_i y hy
      split at h
      · rename_i j m' rest hb hi
        unfold RSys.onTake at h
        split at h
        · rename_i ht
          simp only [List.mem_singleton, REvent.crashed.injEq] at h
          obtain ⟨rfl, rfl, rfl⟩ := h
          exact .inl ⟨m', y, rfl, hy, by rw [hi]; exact List.mem_cons_self, .inl ⟨ht, rfl⟩⟩
        · split at h
          · simp at h
          · split at h
            · simp only [List.mem_singleton, REvent.crashed.injEq] at h
              obtain ⟨rfl, rfl, rfl⟩ := h
              exact .inl ⟨m', y, rfl, hy, by rw [hi]; exact List.mem_cons_self, .inr rfl⟩
            · simp at h
      · cases h
  | reply b r =>
    simp only [rStep] at h
    split at h
    · cases h
    · rename_i y hy
      split at h
      · rename_i j m' hb
        unfold RSys.onReply at h
        split at h
        · rename_i w' ha
          simp only [List.mem_singleton, REvent.crashed.injEq] at h
          obtain ⟨rfl, rfl, rfl⟩ := h
          exact .inr ⟨r, y, m', rfl, hy, hb, .inl ha⟩
        · split at h
          · rename_i hn
            simp only [List.mem_singleton, REvent.crashed.injEq] at h
            obtain ⟨rfl, rfl, rfl⟩ := h
            exact .inr ⟨r, y, m', rfl, hy, hb, .inr ⟨hn.1, hn.2, rfl⟩⟩
          · simp at h
      · cases h
  | drop j => cases h

/-! ### Numbers of messages -/

theorem ids_unique (conns : List Nat) (steps : List RStep) (a b i : Nat) (m m' : RMsg) (h : .sent a i m ∈ (rRun (RSys.new conns) steps).2)
    (h' : .sent b i m' ∈ (rRun (RSys.new conns) steps).2) : a = b ∧ m = m' := by
  have key : (∀ a i m, .sent a i m ∈ (rRun (RSys.new conns) steps).2 → i < (rRun (RSys.new conns) steps).1.next) ∧
      ∀ a b i m m', .sent a i m ∈ (rRun (RSys.new conns) steps).2 → .sent b i m' ∈ (rRun (RSys.new conns) steps).2 → a = b ∧ m = m' := by
    refine rRun_new_inv (P := fun s log => (∀ a i m, .sent a i m ∈ log → i < s.next) ∧
      ∀ a b i m m', .sent a i m ∈ log → .sent b i m' ∈ log → a = b ∧ m = m') ?_ steps conns ⟨by simp, by simp⟩
    intro s log s' ev ⟨h1, h2⟩ mv
    have other : ∀ e : REvent, (∀ a i m, e ≠ .sent a i m) → s.next ≤ s'.next →
        (∀ a i m, .sent a i m ∈ log ++ [e] → i < s'.next) ∧
        ∀ a b i m m', .sent a i m ∈ log ++ [e] → .sent b i m' ∈ log ++ [e] → a = b ∧ m = m' := by
      intro e he hn
      have back : ∀ a i m, .sent a i m ∈ log ++ [e] → .sent a i m ∈ log := by
        intro a i m hm
        rcases List.mem_append.1 hm with hm | hm
        · exact hm
        · exact absurd (List.mem_singleton.1 hm).symm (he a i m)
      exact ⟨fun a i m hm => Nat.lt_of_lt_of_le (h1 a i m (back a i m hm)) hn,
        fun a b i m m' hm hm' => h2 a b i m m' (back a i m hm) (back b i m' hm')⟩
    cases mv with
    | quiet s' ha hb hn =>
      rw [List.append_nil]
      exact ⟨fun a i m hm => Nat.lt_of_lt_of_le (h1 a i m hm) hn, h2⟩
    | refuse a m => exact other _ (by intro _ _ _ e; cases e) (Nat.le_refl _)
    | post a x m hx hal =>
      refine ⟨?_, ?_⟩
      · intro b j m' hm
        rcases List.mem_append.1 hm with hm | hm
        · exact Nat.lt_succ_of_lt (h1 b j m' hm)
        · simp only [List.mem_singleton, REvent.sent.injEq] at hm
          obtain ⟨-, rfl, -⟩ := hm
          exact Nat.lt_succ_self _
      · intro b c j m' m'' hm hm'
        rcases List.mem_append.1 hm with hm | hm <;> rcases List.mem_append.1 hm' with hm' | hm'
        · exact h2 b c j m' m'' hm hm'
        · simp only [List.mem_singleton, REvent.sent.injEq] at hm'
          obtain ⟨-, rfl, -⟩ := hm'
          exact absurd (h1 b _ m' hm) (Nat.lt_irrefl _)
        · simp only [List.mem_singleton, REvent.sent.injEq] at hm
          obtain ⟨-, rfl, -⟩ := hm
          exact absurd (h1 c _ m'' hm') (Nat.lt_irrefl _)
        · simp only [List.mem_singleton, REvent.sent.injEq] at hm hm'
          obtain ⟨rfl, -, rfl⟩ := hm
          obtain ⟨rfl, -, rfl⟩ := hm'
          exact ⟨rfl, rfl⟩
    | die => exact other _ (by intro _ _ _ e; cases e) (Nat.le_refl _)
    | now => exact other _ (by intro _ _ _ e; cases e) (Nat.le_refl _)
    | start => exact other _ (by intro _ _ _ e; cases e) (Nat.le_refl _)
    | fail => exact other _ (by intro _ _ _ e; cases e) (Nat.le_refl _)
    | finish => exact other _ (by intro _ _ _ e; cases e) (Nat.le_refl _)
  exact key.2 a b i m m' h h'

/-! ### What is sent -/

theorem toStr_denotes (j : Json) : Denotes (toStr j).toList j := by
  simp only [toStr, String.toList_ofList]
  exact text_denotes j

theorem toString_number (n : Nat) : NumberText (toString n).toList n := by
  have e : (toString n).toList = Nat.toDigits 10 n := by simp [toString, Nat.repr]
  rw [e]
  exact number_text n

theorem command_wire (m : RMsg) (ht : m.todo = false) (hi : m.immediate = false) : Wire m m.command := by
  cases m with
  | cachePow c => exact .cachePow c _ (toStr_denotes _)
  | retrivePow v => exact .retrivePow v
  | cacheResult r => exact .cacheResult r _ (toString_number _)
  | verify v => exact .verify v
  | deletePow => cases hi
  | deleteResult => cases hi
  | addVisitor id => exact .addVisitor id
  | addSite id m => exact .addSite id m _ (toStr_denotes _)
  | rename a b => exact .rename a b
  | removeCaptcha id => exact .removeCaptcha id
  | getInternalData => cases ht
  | setInternalData => cases ht

/-! ### Reading visitors -/

theorem readVisitor_iff (s : String) (v : AddVisitorResult) : readVisitor s = .ret v ↔ VisitorText s v := by
  have key : (jsonParse s.toList).bind AddVisitorResult.ofJson = some v ↔ ∃ j, Denotes s.toList j ∧ VisitorJson v j := by
    rw [opt_bind_iff]
    constructor
    · rintro ⟨j, h1, h2⟩; exact ⟨j, (parse_iff _ j).1 h1, (visitorJson_iff v j).1 h2⟩
    · rintro ⟨j, h1, h2⟩; exact ⟨j, (parse_iff _ j).2 h1, (visitorJson_iff v j).2 h2⟩
  rw [VisitorText, ← key]
  unfold readVisitor
  cases (jsonParse s.toList).bind AddVisitorResult.ofJson with
  | none => simp
  | some x => simp

theorem readVisitor_panic_iff (s : String) : readVisitor s = .panic .unwrapErr ↔ ¬ ∃ v, VisitorText s v := by
  constructor
  · rintro h ⟨v, hv⟩
    rw [(readVisitor_iff s v).2 hv] at h
    cases h
  · intro h
    cases hr : readVisitor s with
    | ret v => exact absurd ⟨v, (readVisitor_iff s v).1 hr⟩ h
    | panic w => rw [readVisitor_panic hr]

end MCap
