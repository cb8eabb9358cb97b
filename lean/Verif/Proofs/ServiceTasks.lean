import Verif.Proofs.ServiceRun

/-!
# What a step of the master does to its tasks and answers
-/

namespace MCap
open Spec

/-- The task forwards the request with tag `T`. -/
def isFwd (T : Nat) : Task → Bool
  | .forward t _ => t == T
  | _ => false

/-- The tag a task that does not forward will answer. -/
def replyTag : Task → Option Nat
  | .stop t _ => t
  | .collect t _ _ => some t
  | _ => none

/-- What a forwarding task answers when it hears this from the counter. -/
def fwdAnswer : CounterReply → Answer
  | .visitor r => .visitor (some r)
  | _ => .error .mailboxError

theorem sendCounter_reply (p : Profile) (w : World) (ts : List Task) (a : Addr) (msg : CounterMsg) :
    (({ w with tasks := ts } : World).sendCounter p a msg).2 = (w.sendCounter p a msg).2 := by
  unfold World.sendCounter
  cases h : w.counters[a]? with
  | none => simp only [h]
  | some c => simp only [h]; split <;> rfl

/-- Effect of a task's action on tasks and answers. -/
structure TaskEff (p : Profile) (w w' : World) (t : Task) (o : Option Task) (cr : Bool) (extra : List Task) (ans : List (Nat × Answer)) : Prop where
  tasks : w'.tasks = if cr then [] else w.tasks ++ extra
  crashed : w'.crashed = (w.crashed || cr)
  answers : w'.answers = w.answers ++ ans
  quiet : ∀ t' ∈ extra ++ o.toList, (∀ T, isFwd T t' = false) ∧ ∀ T, replyTag t' = some T → replyTag t = some T
  from_ : ∀ e ∈ ans, replyTag t = some e.1 ∨ ∃ a, t = .forward e.1 a ∧ e.2 = fwdAnswer (w.sendCounter p a .addVisitor).2
  fwd : ∀ T a, t = .forward T a → ans = [(T, fwdAnswer (w.sendCounter p a .addVisitor).2)] ∧ cr = false
  gone : cr = true → o = none

theorem removeCaptcha_eff (w : World) (tag : Option Nat) (id : SiteId) :
    ∃ extra ans, (w.handleRemoveCaptcha tag id).tasks = w.tasks ++ extra ∧ (w.handleRemoveCaptcha tag id).crashed = w.crashed ∧
      (w.handleRemoveCaptcha tag id).answers = w.answers ++ ans ∧
      (∀ t' ∈ extra, (∀ T, isFwd T t' = false) ∧ ∀ T, replyTag t' = some T → tag = some T) ∧ ∀ e ∈ ans, tag = some e.1 := by
  unfold World.handleRemoveCaptcha
  split
  · rename_i s r a h
    refine ⟨[.stop tag a], [], rfl, rfl, (List.append_nil _).symm, ?_, by simp⟩
    intro t' ht'
    simp only [List.mem_singleton] at ht'
    subst ht'
    exact ⟨fun _ => rfl, fun T h => h⟩
  · split
    · rename_i t
      exact ⟨[], [(t, .unit)], (List.append_nil _).symm, rfl, rfl, by simp, by simp⟩
    · exact ⟨[], [], (List.append_nil _).symm, rfl, (List.append_nil _).symm, by simp, by simp⟩

theorem runTask_eff (p : Profile) (w : World) (t : Task) :
    ∃ cr extra ans, TaskEff p w (w.runTask p t).1 t (w.runTask p t).2 cr extra ans := by
  have sm := fun a msg => sendCounter_master p w a msg
  cases t with
  | gcWait due =>
    simp only [World.runTask]
    split
    · refine ⟨false, [.gcPoll (iterByKey w.master.sites)], [], rfl, (Bool.or_false _).symm, (List.append_nil _).symm, ?_, by simp, by simp, by simp⟩
      intro t' ht'
      simp at ht'; subst ht'
      exact ⟨fun _ => rfl, fun T h => by cases h⟩
    · refine ⟨false, [], [], (List.append_nil _).symm, (Bool.or_false _).symm, (List.append_nil _).symm, ?_, by simp, by simp, by simp⟩
      intro t' ht'
      simp at ht'; subst ht'
      exact ⟨fun _ => rfl, fun T h => by cases h⟩
  | gcPoll rest =>
    cases rest with
    | nil =>
      refine ⟨false, [], [], (List.append_nil _).symm, (Bool.or_false _).symm, (List.append_nil _).symm, ?_, by simp, by simp, by simp⟩
      intro t' ht'
      simp [World.runTask] at ht'; subst ht'
      exact ⟨fun _ => rfl, fun T h => by cases h⟩
    | cons e rest =>
      obtain ⟨i, r, b⟩ := e
      have hs := (sendCounter_read p w b).1
      simp only [World.runTask]
      split
      · rename_i w' n hh
        rw [hh] at hs; simp only at hs; subst hs
        split
        · refine ⟨false, [], [], (List.append_nil _).symm, (Bool.or_false _).symm, (List.append_nil _).symm, ?_, by simp, by simp, by simp⟩
          intro t' ht'
          simp at ht'; subst ht'
          exact ⟨fun _ => rfl, fun T h => by cases h⟩
        · refine ⟨false, [], [], (List.append_nil _).symm, (Bool.or_false _).symm, (List.append_nil _).symm, ?_, by simp, by simp, by simp⟩
          intro t' ht'
          simp at ht'; subst ht'
          exact ⟨fun _ => rfl, fun T h => by cases h⟩
      · rename_i w' r hr hh
        rw [hh] at hs; simp only at hs; subst hs
        exact ⟨true, [], [], rfl, (Bool.or_true _).symm, (List.append_nil _).symm, by simp, by simp, by simp, by simp⟩
  | gcStop i b rest =>
    obtain ⟨h1, h2, h3, h4, h5, -⟩ := sm b .stop
    simp only [World.runTask]
    split
    · rename_i w' hh
      rw [hh] at h1 h2 h3 h4 h5
      refine ⟨false, [], [], by simpa using h2, by simpa using h4, by simpa using h5, ?_, by simp, by simp, by simp⟩
      intro t' ht'
      simp at ht'; subst ht'
      exact ⟨fun _ => rfl, fun T h => by cases h⟩
    · rename_i w' r hr hh
      rw [hh] at h1 h2 h3 h4 h5
      exact ⟨true, [], [], rfl, (Bool.or_true _).symm, by simpa [World.crash] using h5, by simp, by simp, by simp, by simp⟩
  | gcRemove i rest =>
    obtain ⟨extra, ans, h1, h2, h3, h4, h5⟩ := removeCaptcha_eff w none i
    refine ⟨false, extra, ans, h1, by simpa [World.runTask] using h2, h3, ?_, ?_, by simp, by simp⟩
    · intro t' ht'
      rcases List.mem_append.1 ht' with h | h
      · exact ⟨(h4 t' h).1, fun T hT => by have := (h4 t' h).2 T hT; cases this⟩
      · simp [World.runTask] at h; subst h
        exact ⟨fun _ => rfl, fun T h => by cases h⟩
    · intro e he
      have := h5 e he
      cases this
  | forward tag b =>
    obtain ⟨h1, h2, h3, h4, h5, -⟩ := sm b .addVisitor
    simp only [World.runTask]
    split
    · rename_i w' r hh
      rw [hh] at h1 h2 h3 h4 h5
      refine ⟨false, [], [(tag, .visitor (some r))], by simpa [World.answer] using h2, by simpa [World.answer] using h4,
        by simpa [World.answer] using h5, by simp, ?_, ?_, by simp⟩
      · intro e he
        simp at he; subst he
        exact .inr ⟨b, rfl, by rw [hh]; rfl⟩
      · intro T a e
        injection e with e1 e2
        subst e1 e2
        rw [hh]; exact ⟨rfl, rfl⟩
    · rename_i w' r hr hh
      rw [hh] at h1 h2 h3 h4 h5
      have hf : fwdAnswer (w.sendCounter p b .addVisitor).2 = .error .mailboxError := by
        rw [hh]
        cases r with
        | visitor x => exact absurd rfl (hr x)
        | _ => rfl
      refine ⟨false, [], [(tag, .error .mailboxError)], by simpa [World.answer] using h2, by simpa [World.answer] using h4,
        by simpa [World.answer] using h5, by simp, ?_, ?_, by simp⟩
      · intro e he
        simp at he; subst he
        exact .inr ⟨b, rfl, hf.symm⟩
      · intro T a e
        injection e with e1 e2
        subst e1 e2
        rw [hf]; exact ⟨rfl, rfl⟩
  | stop tag b =>
    obtain ⟨h1, h2, h3, h4, h5, -⟩ := sm b .stop
    simp only [World.runTask]
    split
    · rename_i w' t hh
      rw [hh] at h1 h2 h3 h4 h5
      exact ⟨false, [], [(t, .unit)], by simpa [World.answer] using h2, by simpa [World.answer] using h4,
        by simpa [World.answer] using h5, by simp, by simp [replyTag], by simp, by simp⟩
    · rename_i w' r t hr hh
      rw [hh] at h1 h2 h3 h4 h5
      exact ⟨false, [], [(t, .error .mailboxError)], by simpa [World.answer] using h2, by simpa [World.answer] using h4,
        by simpa [World.answer] using h5, by simp, by simp [replyTag], by simp, by simp⟩
    · rename_i w' r hh
      rw [hh] at h1 h2 h3 h4 h5
      exact ⟨false, [], [], by simpa using h2, by simpa using h4, by simpa using h5, by simp, by simp, by simp, by simp⟩
  | collect tag rest acc =>
    cases rest with
    | nil =>
      exact ⟨false, [], [(tag, .data acc)], (List.append_nil _).symm, (Bool.or_false _).symm, rfl, by simp [World.runTask],
        by simp [replyTag], by simp, by simp⟩
    | cons e rest =>
      obtain ⟨i, r, b⟩ := e
      have hs := (sendCounter_read p w b).2
      simp only [World.runTask]
      split
      · rename_i w' m hh
        rw [hh] at hs; simp only at hs; subst hs
        refine ⟨false, [], [], (List.append_nil _).symm, (Bool.or_false _).symm, (List.append_nil _).symm, ?_, by simp, by simp, by simp⟩
        intro t' ht'
        simp at ht'; subst ht'
        exact ⟨fun _ => rfl, fun T h => h⟩
      · rename_i w' r hr hh
        rw [hh] at hs; simp only at hs; subst hs
        refine ⟨false, [], [], (List.append_nil _).symm, (Bool.or_false _).symm, (List.append_nil _).symm, ?_, by simp, by simp, by simp⟩
        intro t' ht'
        simp at ht'; subst ht'
        exact ⟨fun _ => rfl, fun T h => h⟩
  | restoreNew i m =>
    exact ⟨false, [], [], (List.append_nil _).symm, (Bool.or_false _).symm, (List.append_nil _).symm, by simp [World.runTask], by simp, by simp, by simp⟩
  | restoreOld b m =>
    obtain ⟨h1, h2, h3, h4, h5, -⟩ := sm b (.setInternalData m)
    exact ⟨false, [], [], by simpa [World.runTask] using h2, by simpa [World.runTask] using h4, by simpa [World.runTask] using h5,
      by simp [World.runTask], by simp, by simp, by simp⟩

theorem restoreLoop_eff (w : World) (data : List (SiteId × MCaptcha)) :
    ∃ extra, (w.restoreLoop data).tasks = w.tasks ++ extra ∧ (w.restoreLoop data).crashed = w.crashed ∧
      (w.restoreLoop data).answers = w.answers ∧ ∀ t' ∈ extra, (∀ T, isFwd T t' = false) ∧ replyTag t' = none := by
  induction data generalizing w with
  | nil => exact ⟨[], (List.append_nil _).symm, rfl, rfl, by simp⟩
  | cons e r ih =>
    obtain ⟨name, m⟩ := e
    simp only [World.restoreLoop]
    split
    · rename_i s _
      obtain ⟨extra, h1, h2, h3, h4⟩ := ih (({ w with master := s } : World).spawn (.restoreNew name m))
      refine ⟨.restoreNew name m :: extra, by rw [h1]; simp [World.spawn], by rw [h2]; rfl, by rw [h3]; rfl, ?_⟩
      intro t' ht'
      rcases List.mem_cons.1 ht' with rfl | h
      · exact ⟨fun _ => rfl, rfl⟩
      · exact h4 t' h
    · rename_i s b _
      obtain ⟨extra, h1, h2, h3, h4⟩ := ih (({ w with master := s } : World).spawn (.restoreOld b m))
      refine ⟨.restoreOld b m :: extra, by rw [h1]; simp [World.spawn], by rw [h2]; rfl, by rw [h3]; rfl, ?_⟩
      intro t' ht'
      rcases List.mem_cons.1 ht' with rfl | h
      · exact ⟨fun _ => rfl, rfl⟩
      · exact h4 t' h

/-- Effect of a message on tasks and answers: everything new carries its tag. -/
theorem handle_eff (w : World) (tag : Nat) (msg : MasterMsg) :
    ∃ extra ans, (w.handle tag msg).tasks = w.tasks ++ extra ∧ (w.handle tag msg).crashed = w.crashed ∧
      (w.handle tag msg).answers = w.answers ++ ans ∧
      (∀ t' ∈ extra, (∀ T, isFwd T t' = true → T = tag) ∧ ∀ T, replyTag t' = some T → T = tag) ∧ ∀ e ∈ ans, e.1 = tag := by
  have one : ∀ t : Task, (∀ T, isFwd T t = true → T = tag) → (∀ T, replyTag t = some T → T = tag) →
      ∀ t' ∈ [t], (∀ T, isFwd T t' = true → T = tag) ∧ ∀ T, replyTag t' = some T → T = tag := by
    intro t h1 h2 t' ht'
    simp only [List.mem_singleton] at ht'
    subst ht'
    exact ⟨h1, h2⟩
  cases msg with
  | addVisitor id =>
    simp only [World.handle, World.handleAddVisitor]
    split
    · exact ⟨[], [(tag, .visitor none)], (List.append_nil _).symm, rfl, rfl, by simp, by simp⟩
    · rename_i a _
      refine ⟨[.forward tag a], [], rfl, rfl, (List.append_nil _).symm, one _ ?_ ?_, by simp⟩
      · intro T h; simp [isFwd] at h; exact h.symm
      · intro T h; cases h
  | addSite id m => exact ⟨[], [(tag, .unit)], (List.append_nil _).symm, rfl, rfl, by simp, by simp⟩
  | rename a b => exact ⟨[], [(tag, .unit)], (List.append_nil _).symm, rfl, rfl, by simp, by simp⟩
  | removeCaptcha id =>
    obtain ⟨extra, ans, h1, h2, h3, h4, h5⟩ := removeCaptcha_eff w (some tag) id
    refine ⟨extra, ans, h1, h2, h3, ?_, ?_⟩
    · intro t' ht'
      refine ⟨fun T h => (by rw [(h4 t' ht').1 T] at h; exact absurd h (by simp)), fun T h => ?_⟩
      have := (h4 t' ht').2 T h
      injection this with this
      exact this.symm
    · intro e he
      have := h5 e he
      injection this with this
      exact this.symm
  | getSite id => exact ⟨[], [(tag, .site (w.master.getSite id).2)], (List.append_nil _).symm, rfl, rfl, by simp, by simp⟩
  | cleanUp =>
    refine ⟨[.gcPoll (iterByKey w.master.sites)], [(tag, .unit)], rfl, rfl, rfl, one _ ?_ ?_, by simp⟩
    · intro T h; cases h
    · intro T h; cases h
  | getInternalData =>
    refine ⟨[.collect tag (iterByKey w.master.sites) []], [], rfl, rfl, (List.append_nil _).symm, one _ ?_ ?_, by simp⟩
    · intro T h; cases h
    · intro T h; injection h with h; exact h.symm
  | setInternalData data =>
    obtain ⟨extra, h1, h2, h3, h4⟩ := restoreLoop_eff w data
    refine ⟨extra, [(tag, .unit)], h1, h2, by simp only [World.handle, World.handleSetInternalData, World.answer, h3], ?_, by simp⟩
    intro t' ht'
    refine ⟨fun T h => (by rw [(h4 t' ht').1 T] at h; exact absurd h (by simp)), fun T h => ?_⟩
    rw [(h4 t' ht').2] at h; cases h

/-- Replies to `AddVisitor`. -/
theorem sendCounter_addVisitor (p : Profile) (w : World) (a : Addr) :
    (∃ r, (w.sendCounter p a .addVisitor).2 = .visitor r) ∨ (w.sendCounter p a .addVisitor).2 = .mailboxError := by
  unfold World.sendCounter
  split
  · exact .inr rfl
  · rename_i c hc
    unfold Counter.send
    by_cases ha : c.alive = true
    · simp only [ha, if_true]
      cases h : c.handleAddVisitor p w.now with
      | ret x => exact .inl ⟨x.2, by simp [Exec.map]⟩
      | panic _ => exact .inr (by simp [Exec.map])
    · simp only [ha]
      exact .inr rfl

end MCap
