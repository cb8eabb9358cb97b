import Verif.Proofs.ServiceTasks
import Verif.Proofs.SystemAnswer

/-!
# What connects the calls of the API to the counters
-/

namespace MCap
open Spec

/-- The number of times the master handled the request of call `i`. -/
def askedFor (i : Nat) (log : List VEvent) : Nat := log.countP fun | .asked j _ _ => j == i | _ => false

/-- Why call `i` can have this answer. -/
def Answered (log : List VEvent) (i : Nat) : Answer → Prop
  | .visitor none => ∃ id, .asked i id none ∈ log
  | .visitor (some r) => ∃ a t, .counter (some i) a t .addVisitor (.visitor r) ∈ log
  | .error _ => ∃ a t, .counter (some i) a t .addVisitor .mailboxError ∈ log
  | .mailboxError => True
  | _ => False

/-- Why an event could happen after `pre`. -/
def VWhy (pre : List VEvent) : VEvent → Prop
  | .counter (some i) a _ msg _ => msg = .addVisitor ∧ ∃ id, .asked i id (some a) ∈ pre
  | .asked i id a => .api (.call i (.get id)) ∈ pre ∧ a = regAfter (fun _ => none) 0 (masterMsgs pre) id
  | .api (.master i (.reply (.ok (some r)))) => ∃ a t, .counter (some i) a t .addVisitor (.visitor r) ∈ pre
  | .api (.master i (.reply (.ok none))) => ∃ id, .asked i id none ∈ pre
  | .api (.master i (.reply (.error _))) => ∃ a t, .counter (some i) a t .addVisitor .mailboxError ∈ pre
  | _ => True

structure Link (v : Service) (log : List VEvent) : Prop where
  fwd : ∀ i a, .forward (2 * i) a ∈ v.world.tasks → ∃ id, .asked i id (some a) ∈ log
  count : ∀ i, countedFor i log + v.world.tasks.countP (isFwd (2 * i)) ≤ askedFor i log
  once : ∀ i, askedFor i log ≤ if i ∈ v.asked then 1 else 0
  odd : ∀ t ∈ v.world.tasks, ∀ T, replyTag t = some T → T % 2 = 1
  answers : ∀ i ans, (2 * i, ans) ∈ v.world.answers → Answered log i ans
  waits : ∀ i ∈ v.asked, v.world.crashed = true ∨ (∃ ans, (2 * i, ans) ∈ v.world.answers) ∨ ∃ a, .forward (2 * i) a ∈ v.world.tasks
  why : ∀ pre e post, log = pre ++ e :: post → VWhy pre e

theorem prefix_snoc {α : Type} {W : List α → α → Prop} {log : List α} (h : ∀ pre e post, log = pre ++ e :: post → W pre e) (e : α)
    (he : W log e) : ∀ pre e' post, log ++ [e] = pre ++ e' :: post → W pre e' := by
  intro pre e' post hs
  rcases List.eq_nil_or_concat post with rfl | ⟨post, x, rfl⟩
  · have := List.append_inj' hs rfl
    obtain ⟨rfl, h2⟩ := this
    cases h2
    exact he
  · have : log ++ [e] = (pre ++ e' :: post) ++ [x] := by rw [hs]; simp
    obtain ⟨h1, -⟩ := List.append_inj' this rfl
    exact h pre e' post h1

theorem prefix_extend {α : Type} {W : List α → α → Prop} {log : List α} (h : ∀ pre e post, log = pre ++ e :: post → W pre e)
    (ev : List α) (he : ∀ ev1 e ev2, ev = ev1 ++ e :: ev2 → W (log ++ ev1) e) :
    ∀ pre e' post, log ++ ev = pre ++ e' :: post → W pre e' := by
  induction ev generalizing log with
  | nil => simpa using h
  | cons x r ih =>
    have h1 := prefix_snoc h x (by simpa using he [] x r rfl)
    have := ih h1 (by
      intro ev1 e ev2 h2
      have := he (x :: ev1) e ev2 (by rw [h2]; rfl)
      simpa using this)
    simpa using this

theorem askedFor_append (i : Nat) (a b : List VEvent) : askedFor i (a ++ b) = askedFor i a + askedFor i b := by simp [askedFor]

theorem answered_mono {log : List VEvent} (ev : List VEvent) {i : Nat} {a : Answer} (h : Answered log i a) : Answered (log ++ ev) i a := by
  cases a with
  | visitor r =>
    cases r with
    | none => obtain ⟨id, h⟩ := h; exact ⟨id, List.mem_append_left _ h⟩
    | some r => obtain ⟨a, t, h⟩ := h; exact ⟨a, t, List.mem_append_left _ h⟩
  | error e => obtain ⟨a, t, h⟩ := h; exact ⟨a, t, List.mem_append_left _ h⟩
  | mailboxError => trivial
  | unit => exact h
  | site _ => exact h
  | data _ => exact h
  | counter _ => exact h

/-- Only an answer of the master is an event of that kind. -/
theorem master_event (lib : PowLib) (p : Profile) (s : Sys) (st : SStep) (j : Nat) (b : MasterAnswer)
    (h : .master j b ∈ (sysStep lib p s st).2) : ∃ g, st = .master j b g := by
  have hq : ∀ l : List QEvent, SEvent.master j b ∉ l.map .queue := by simp
  unfold sysStep at h
  split at h
  · simp at h
  cases st with
  | call a => simp only at h; split at h <;> simp at h
  | master i a g =>
    simp only at h
    split at h
    · split at h
      · rename_i c _ _ id _ _ _ _ _
        cases a with
        | mailboxError => simp [Sys.onMaster, Sys.returns] at h; obtain ⟨rfl, rfl⟩ := h; exact ⟨g, rfl⟩
        | recvError => simp [Sys.onMaster, Sys.returns] at h; obtain ⟨rfl, rfl⟩ := h; exact ⟨g, rfl⟩
        | reply r =>
          cases r with
          | error e => simp [Sys.onMaster, Sys.returns] at h; obtain ⟨rfl, rfl⟩ := h; exact ⟨g, rfl⟩
          | ok r =>
            cases r with
            | none => simp [Sys.onMaster, Sys.returns] at h; obtain ⟨rfl, rfl⟩ := h; exact ⟨g, rfl⟩
            | some r => simp [Sys.onMaster] at h; obtain ⟨rfl, rfl⟩ := h; exact ⟨g, rfl⟩
      · simp at h
    · simp at h
  | cache i =>
    simp only at h
    split at h
    · split at h <;> simp at h
    · simp at h
  | cacheGone i =>
    simp only at h
    split at h
    · split at h
      · unfold Sys.onCacheGone at h
        split at h <;> simp [Sys.returns] at h
      · simp at h
    · simp at h
  | resume i =>
    simp only at h
    split at h
    · split at h
      · unfold Sys.onResume at h
        split at h <;> try (simp [Sys.returns] at h; done)
        unfold Sys.onRetrieved at h
        split at h
        · simp [Sys.returns] at h
        · split at h
          · simp [Sys.returns] at h
          · split at h
            · exact absurd h (hq _)
            · simp at h
      · simp at h
    · simp at h
  | poll i g =>
    simp only at h
    split at h
    · split at h
      · unfold Sys.onPoll at h
        split at h
        · simp only at h
          split at h <;> simp [Sys.returns] at h
        · simp at h
      · simp at h
    · simp at h
  | queue qs =>
    simp only at h
    split at h
    · exact absurd h (hq _)
    · simp at h
  | work w => simp at h
  | fire k => simp at h
  | tick d => simp at h
  | cancel i =>
    simp only at h
    split at h
    · split at h <;> simp at h
    · simp at h
  | shutdown =>
    simp only at h
    split at h
    · exact absurd h (hq _)
    · simp at h

theorem countedFor_api (i : Nat) (ev : List SEvent) : countedFor i (ev.map .api) = 0 := by
  simp [countedFor, List.countP_eq_zero]

theorem askedFor_api (i : Nat) (ev : List SEvent) : askedFor i (ev.map .api) = 0 := by
  simp [askedFor, List.countP_eq_zero]

/-- Events of the API alone. -/
theorem link_api {v : Service} {log : List VEvent} (h : Link v log) (s : Sys) (ev : List SEvent)
    (he : ∀ j b, .master j b ∈ ev → VWhy log (.api (.master j b))) : Link { v with sys := s } (log ++ ev.map .api) where
  fwd i a ha := (h.fwd i a ha).imp fun _ hx => List.mem_append_left _ hx
  count i := by rw [countedFor_append, askedFor_append, countedFor_api, askedFor_api]; exact h.count i
  once i := by rw [askedFor_append, askedFor_api]; exact h.once i
  odd := h.odd
  answers i ans ha := answered_mono _ (h.answers i ans ha)
  waits := h.waits
  why := by
    refine prefix_extend h.why _ ?_
    intro ev1 e ev2 hs
    have hm : e ∈ ev.map VEvent.api := by rw [hs]; simp
    obtain ⟨x, hx, rfl⟩ := List.mem_map.1 hm
    cases x with
    | master j b =>
      have hw := he j b hx
      cases b with
      | reply r =>
        cases r with
        | error e => obtain ⟨a, t, hw⟩ := hw; exact ⟨a, t, List.mem_append_left _ hw⟩
        | ok r =>
          cases r with
          | none => obtain ⟨a, hw⟩ := hw; exact ⟨a, List.mem_append_left _ hw⟩
          | some r => obtain ⟨a, t, hw⟩ := hw; exact ⟨a, t, List.mem_append_left _ hw⟩
      | mailboxError => trivial
      | recvError => trivial
    | _ => trivial

/-- What call `i` hears is explained. -/
theorem heard_why {v : Service} {log : List VEvent} (h : Link v log) {i : Nat} {a : MasterAnswer} (ha : v.heard i = some a) :
    VWhy log (.api (.master i a)) := by
  unfold Service.heard at ha
  split at ha
  all_goals try (rename_i hf; have hm := List.mem_of_find?_eq_some hf; have ht := List.find?_some hf)
  · simp at ht
    subst ht
    have := h.answers i _ hm
    injection ha with ha
    subst ha
    cases ‹Option AddVisitorResult› <;> exact this
  · simp at ht
    subst ht
    have := h.answers i _ hm
    injection ha with ha
    subst ha
    exact this
  · injection ha with ha
    subst ha
    trivial
  · cases ha
  · split at ha
    · injection ha with ha
      subst ha
      trivial
    · cases ha

theorem countP_isFwd_eraseIdx (T : Nat) (ts : List Task) (i : Nat) (t : Task) (h : ts[i]? = some t) :
    (ts.eraseIdx i).countP (isFwd T) + (if isFwd T t then 1 else 0) = ts.countP (isFwd T) := by
  induction ts generalizing i with
  | nil => simp at h
  | cons a r ih =>
    cases i with
    | zero => simp at h; subst h; simp [List.countP_cons]
    | succ i =>
      have := ih i (by simpa using h)
      simp only [List.eraseIdx_cons_succ, List.countP_cons]
      omega

theorem countP_quiet (T : Nat) (ts : List Task) (h : ∀ t ∈ ts, isFwd T t = false) : ts.countP (isFwd T) = 0 := by
  rw [List.countP_eq_zero]
  intro t ht
  rw [h t ht]; simp

theorem isFwd_iff (T : Nat) (t : Task) : isFwd T t = true ↔ ∃ a, t = .forward T a := by
  cases t <;> simp [isFwd]

theorem link_world {lib : PowLib} {p : Profile} {v : Service} {log : List VEvent} (h : Link v log) (s : WStep) :
    Link (vStep lib p v (.world s)).1 (log ++ (vStep lib p v (.world s)).2) := by
  unfold vStep
  split
  · rw [List.append_nil]; exact h
  simp only
  cases s with
  | tick d => simp only [Service.others]; rw [List.append_nil]; exact h
  | fire a i =>
    simp only [Service.others, Service.worldEvents, Service.toCounter, Service.toMaster, Option.toList, List.map_nil, List.append_nil]
    have e : (wstep p v.world (.fire a i)).tasks = v.world.tasks ∧ (wstep p v.world (.fire a i)).answers = v.world.answers ∧
        (wstep p v.world (.fire a i)).crashed = v.world.crashed := by
      simp only [wstep]; split <;> exact ⟨rfl, rfl, rfl⟩
    obtain ⟨e1, e2, e3⟩ := e
    exact { fwd := by rw [e1]; exact h.fwd, count := by rw [e1]; exact h.count, once := h.once, odd := by rw [e1]; exact h.odd,
            answers := by rw [e2]; exact h.answers, waits := by rw [e1, e2, e3]; exact h.waits, why := h.why }
  | direct t a msg =>
    simp only [Service.others, Service.worldEvents, Service.toCounter, Service.toMaster, Option.toList, List.map_nil, List.append_nil]
    obtain ⟨-, e1, -, e3, e2, -⟩ := sendCounter_master p v.world a msg
    have e1 : (wstep p v.world (.direct (2 * t + 1) a msg)).tasks = v.world.tasks := e1
    have e3 : (wstep p v.world (.direct (2 * t + 1) a msg)).crashed = v.world.crashed := e3
    have e2 : (wstep p v.world (.direct (2 * t + 1) a msg)).answers = v.world.answers ++ [(2 * t + 1, .counter (v.world.sendCounter p a msg).2)] := by
      simp only [wstep, World.answer, e2]
    refine { fwd := ?_, count := ?_, once := ?_, odd := ?_, answers := ?_, waits := ?_, why := ?_ }
    · rw [e1]; exact fun i a ha => (h.fwd i a ha).imp fun _ hx => List.mem_append_left _ hx
    · intro i
      rw [e1, countedFor_append, askedFor_append]
      exact h.count i
    · intro i
      rw [askedFor_append]
      exact h.once i
    · rw [e1]; exact h.odd
    · intro i ans ha
      simp only at ha
      rw [e2] at ha
      rcases List.mem_append.1 ha with ha | ha
      · exact answered_mono _ (h.answers i ans ha)
      · simp at ha; omega
    · intro i hi
      rw [e1, e2, e3]
      rcases h.waits i hi with h1 | ⟨ans, h1⟩ | h1
      · exact .inl h1
      · exact .inr (.inl ⟨ans, List.mem_append_left _ h1⟩)
      · exact .inr (.inr h1)
    · exact prefix_snoc h.why _ trivial
  | req t msg =>
    simp only [Service.others, Service.worldEvents, Service.toCounter, List.nil_append]
    by_cases hc : v.world.crashed = true
    · simp only [Service.toMaster, hc, if_true, Option.toList, List.map_nil, List.append_nil, wstep]
      refine { fwd := h.fwd, count := h.count, once := h.once, odd := h.odd, answers := ?_, waits := fun _ _ => .inl hc, why := h.why }
      intro i ans ha
      rcases List.mem_append.1 ha with ha | ha
      · exact h.answers i ans ha
      · simp at ha; omega
    · simp only [Service.toMaster, hc, wstep, Option.toList, List.map_nil]
      obtain ⟨extra, ans, e1, e2, e3, e4, e5⟩ := handle_eff v.world (2 * t + 1) msg
      refine { fwd := ?_, count := ?_, once := ?_, odd := ?_, answers := ?_, waits := ?_, why := ?_ }
      · intro i a ha
        simp only [Bool.false_eq_true, if_false] at ha
        rw [e1] at ha
        rcases List.mem_append.1 ha with ha | ha
        · exact (h.fwd i a ha).imp fun _ hx => List.mem_append_left _ hx
        · have := (e4 _ ha).1 (2 * i) (by simp [isFwd]); omega
      · intro i
        simp only [Bool.false_eq_true, if_false]
        rw [countedFor_append, askedFor_append, e1, List.countP_append, countP_quiet (2 * i) extra]
        · exact h.count i
        · intro t' ht'
          cases hx : isFwd (2 * i) t' with
          | false => rfl
          | true => have := (e4 _ ht').1 (2 * i) hx; omega
      · intro i
        rw [askedFor_append]; exact h.once i
      · intro t' ht' T hT
        simp only [Bool.false_eq_true, if_false] at ht'
        rw [e1] at ht'
        rcases List.mem_append.1 ht' with ht' | ht'
        · exact h.odd t' ht' T hT
        · have := (e4 _ ht').2 T hT; omega
      · intro i x hx
        simp only [Bool.false_eq_true, if_false] at hx
        rw [e3] at hx
        rcases List.mem_append.1 hx with hx | hx
        · exact answered_mono _ (h.answers i x hx)
        · have := e5 _ hx; simp only at this; omega
      · intro i hi
        simp only [Bool.false_eq_true, if_false]
        rw [e1, e2, e3]
        rcases h.waits i hi with h1 | ⟨x, h1⟩ | ⟨a, h1⟩
        · exact .inl h1
        · exact .inr (.inl ⟨x, List.mem_append_left _ h1⟩)
        · exact .inr (.inr ⟨a, List.mem_append_left _ h1⟩)
      · exact prefix_snoc h.why _ trivial
  | run k =>
    simp only [Service.others, Service.worldEvents]
    cases ht : v.world.tasks[k]? with
    | none =>
      simp only [Service.toCounter, Service.toMaster, ht, Option.toList, List.map_nil, List.append_nil, wstep, World.runAt]
      exact h
    | some t =>
      -- the state
      have hw : ∃ (cr : Bool) (extra : List Task) (ans : List (Nat × Answer)),
          (∀ T, (wstep p v.world (.run k)).tasks.countP (isFwd T) + (if isFwd T t then 1 else 0) ≤ v.world.tasks.countP (isFwd T)) ∧
          (∀ t' ∈ (wstep p v.world (.run k)).tasks, t' ∈ v.world.tasks ∨ ((∀ T, isFwd T t' = false) ∧ ∀ T, replyTag t' = some T → replyTag t = some T)) ∧
          (wstep p v.world (.run k)).answers = v.world.answers ++ ans ∧
          (∀ e ∈ ans, replyTag t = some e.1 ∨ ∃ a, t = .forward e.1 a ∧ e.2 = fwdAnswer (v.world.sendCounter p a .addVisitor).2) ∧
          (∀ T a, t = .forward T a → ∃ x, (T, x) ∈ ans) ∧
          ((wstep p v.world (.run k)).crashed = true ∨ ∀ T a, .forward T a ∈ v.world.tasks → t = .forward T a ∨ .forward T a ∈ (wstep p v.world (.run k)).tasks) := by
        obtain ⟨cr, extra, ans, e⟩ := runTask_eff p { v.world with tasks := v.world.tasks.eraseIdx k } t
        have hcnt := fun T => countP_isFwd_eraseIdx T v.world.tasks k t ht
        have hmem : ∀ T a, .forward T a ∈ v.world.tasks → t = .forward T a ∨ .forward T a ∈ v.world.tasks.eraseIdx k := by
          intro T a hx
          obtain ⟨n, hn⟩ := List.getElem?_of_mem hx
          by_cases hnk : n = k
          · subst hnk; rw [ht] at hn; injection hn with hn; exact .inl hn
          · right
            rw [List.mem_eraseIdx_iff_getElem?]
            exact ⟨n, hnk, hn⟩
        have hstep : ∀ w' o, World.runTask p { v.world with tasks := v.world.tasks.eraseIdx k } t = (w', o) →
            wstep p v.world (.run k) = { w' with tasks := o.toList ++ w'.tasks } := by
          intro w' o hh
          simp only [wstep, World.runAt, ht, hh]
          cases o <;> rfl
        cases hh : World.runTask p { v.world with tasks := v.world.tasks.eraseIdx k } t with
        | mk w' o =>
          rw [hstep w' o hh]
          rw [hh] at e
          obtain ⟨e1, e2, e3, e4, e5, e6, e7⟩ := e
          simp only at e1 e2 e3 e4 e5 e6 e7
          refine ⟨cr, extra, ans, ?_, ?_, ?_, ?_, ?_, ?_⟩
          · intro T
            have hq : (extra ++ o.toList).countP (isFwd T) = 0 := countP_quiet T _ fun t' ht' => (e4 t' ht').1 T
            rw [List.countP_append] at hq
            have := hcnt T
            simp only [e1]
            cases cr
            · simp only [Bool.false_eq_true, if_false, List.countP_append]; omega
            · simp only [if_true, List.append_nil]; omega
          · intro t' ht'
            rcases List.mem_append.1 ht' with hx | hx
            · exact .inr (e4 t' (List.mem_append_right _ hx))
            · rw [e1] at hx
              cases cr
              · simp only [Bool.false_eq_true, if_false] at hx
                rcases List.mem_append.1 hx with hx | hx
                · exact .inl (List.mem_of_mem_eraseIdx hx)
                · exact .inr (e4 t' (List.mem_append_left _ hx))
              · simp at hx
          · exact e3
          · intro x hx
            rcases e5 x hx with h1 | ⟨a, h1, h2⟩
            · exact .inl h1
            · exact .inr ⟨a, h1, by rw [h2, sendCounter_reply]⟩
          · intro T a hT
            obtain ⟨h1, -⟩ := e6 T a hT
            exact ⟨_, by rw [h1]; exact List.mem_singleton.2 rfl⟩
          · cases cr
            · right
              intro T a hx
              rcases hmem T a hx with h1 | h1
              · exact .inl h1
              · refine .inr (List.mem_append_right _ ?_)
                rw [e1]; exact List.mem_append_left _ h1
            · left; simp [e2]
      obtain ⟨cr, extra, ans, hcnt, hmem, hans, hfrom, hdone, hkeep⟩ := hw
      -- the events
      have hev : ∃ (x : Option VEvent) (y : List VEvent), Service.worldEvents p v.world (.run k) = x.toList ++ y ∧ (∀ e ∈ y, ∃ m, e = .master m) ∧
          (∀ i, 2 * i ∉ (match t with | .forward T _ => [T] | _ => []) → ∀ e, x = some e → ∀ a' t' m r, e ≠ .counter (some i) a' t' m r) ∧
          (∀ T a, t = .forward T a → x = some (.counter (Service.caller T) a v.world.now .addVisitor (v.world.sendCounter p a .addVisitor).2)) ∧
          (∀ e, x = some e → ∃ who a m r, e = .counter who a v.world.now m r) := by
        refine ⟨(match Service.toCounter v.world (.run k) with
            | some (who, a, msg) => some (.counter who a v.world.now msg (v.world.sendCounter p a msg).2)
            | none => none), (Service.toMaster v.world (.run k)).toList.map .master, ?_, ?_, ?_, ?_, ?_⟩
        · simp only [Service.worldEvents]
          congr 1
          cases Service.toCounter v.world (.run k) with
          | none => rfl
          | some x => rfl
        · intro e he
          obtain ⟨m, -, rfl⟩ := List.mem_map.1 he
          exact ⟨m, rfl⟩
        · intro i hi e he a' t' m r hne
          subst hne
          simp only [Service.toCounter, ht] at he
          cases t with
          | gcPoll rest => cases rest <;> simp at he
          | collect tag rest acc => cases rest <;> simp at he
          | forward T a =>
            simp only [Option.some.injEq, VEvent.counter.injEq] at he
            simp only [List.mem_singleton] at hi
            have := he.1
            unfold Service.caller at this
            split at this
            · injection this with this; omega
            · cases this
          | _ => simp at he
        · intro T a hT
          subst hT
          simp only [Service.toCounter, ht]
        · intro e he
          cases hx : Service.toCounter v.world (.run k) with
          | none => rw [hx] at he; simp at he
          | some y => rw [hx] at he; simp only [Option.some.injEq] at he; exact ⟨_, _, _, _, he.symm⟩
      obtain ⟨x, y, hev, hy, hx1, hx2, hx3⟩ := hev
      have hcy : ∀ i, countedFor i y = 0 := by
        intro i
        rw [countedFor, List.countP_eq_zero]
        intro e he
        obtain ⟨m, rfl⟩ := hy e he
        simp
      have hay : ∀ i, askedFor i (x.toList ++ y) = 0 := by
        intro i
        rw [askedFor, List.countP_eq_zero]
        intro e he
        rcases List.mem_append.1 he with he | he
        · rw [Option.mem_toList] at he
          obtain ⟨who, a, m, r, rfl⟩ := hx3 e he
          simp
        · obtain ⟨m, rfl⟩ := hy e he
          simp
      have hcx : ∀ i, countedFor i x.toList ≤ if isFwd (2 * i) t then 1 else 0 := by
        intro i
        cases hf : isFwd (2 * i) t with
        | true =>
          cases x with
          | none => simp [countedFor]
          | some e => simp only [if_true, countedFor, Option.toList]; exact List.countP_le_length
        | false =>
          simp only [Bool.false_eq_true, if_false, Nat.le_zero, countedFor]
          rw [List.countP_eq_zero]
          intro e he
          rw [Option.mem_toList] at he
          have := hx1 i (by
            cases t with
            | forward T a => simp [isFwd] at hf ⊢; omega
            | _ => simp) e he
          cases e with
          | counter who a t' m r =>
            cases who with
            | none => simp
            | some j => simp only [beq_iff_eq]; intro hj; subst hj; exact this _ _ _ _ rfl
          | _ => simp
      rw [← Service.worldEvents, hev]
      refine { fwd := ?_, count := ?_, once := ?_, odd := ?_, answers := ?_, waits := ?_, why := ?_ }
      · intro i a ha
        rcases hmem _ ha with ha | ⟨ha, -⟩
        · exact (h.fwd i a ha).imp fun _ hx => List.mem_append_left _ hx
        · have := ha (2 * i); simp [isFwd] at this
      · intro i
        rw [countedFor_append, askedFor_append, hay, countedFor_append, hcy]
        show countedFor i log + (countedFor i x.toList + 0) + (wstep p v.world (.run k)).tasks.countP (isFwd (2 * i)) ≤ askedFor i log + 0
        have := hcnt (2 * i)
        have := hcx i
        have := h.count i
        omega
      · intro i
        rw [askedFor_append, hay]; exact h.once i
      · intro t' ht' T hT
        rcases hmem _ ht' with hm | ⟨-, hm⟩
        · exact h.odd t' hm T hT
        · exact h.odd t (List.mem_of_getElem? ht) T (hm T hT)
      · intro i a ha
        simp only at ha
        rw [hans] at ha
        rcases List.mem_append.1 ha with ha | ha
        · exact answered_mono _ (h.answers i a ha)
        · rcases hfrom _ ha with h1 | ⟨b, h1, h2⟩
          · have := h.odd t (List.mem_of_getElem? ht) _ h1
            simp only at this; omega
          · have hx := hx2 _ _ h1
            have hcl : Service.caller (2 * i) = some i := by simp [Service.caller]
            simp only at h2 hx
            rw [hcl] at hx
            subst hx
            rw [h2]
            rcases sendCounter_addVisitor p v.world b with ⟨r, hr⟩ | hr
            · rw [hr]; exact ⟨b, v.world.now, by simp⟩
            · rw [hr]; exact ⟨b, v.world.now, by simp⟩
      · intro i hi
        rcases h.waits i hi with h1 | ⟨a, h1⟩ | ⟨a, h1⟩
        · left
          obtain ⟨cr, extra, ans, e⟩ := runTask_eff p { v.world with tasks := v.world.tasks.eraseIdx k } t
          have e2 := e.crashed
          simp only [wstep, World.runAt, ht]
          split <;> (rename_i hh; rw [hh] at e2; simp only at e2; rw [e2, h1]; rfl)
        · exact .inr (.inl ⟨a, by simp only; rw [hans]; exact List.mem_append_left _ h1⟩)
        · rcases hkeep with h2 | h2
          · exact .inl h2
          · rcases h2 _ _ h1 with h3 | h3
            · obtain ⟨y, hy⟩ := hdone _ _ h3
              exact .inr (.inl ⟨y, by simp only; rw [hans]; exact List.mem_append_right _ hy⟩)
            · exact .inr (.inr ⟨a, h3⟩)
      · refine prefix_extend h.why _ ?_
        intro ev1 e ev2 hs
        have htr : ∀ m, VWhy (log ++ ev1) (.master m) := fun _ => trivial
        cases x with
        | none =>
          have : e ∈ y := by simp only [Option.toList, List.nil_append] at hs; rw [hs]; simp
          obtain ⟨m, rfl⟩ := hy e this
          trivial
        | some c =>
          cases ev1 with
          | cons b r =>
            have : e ∈ y := by
              simp only [Option.toList, List.cons_append, List.nil_append, List.cons.injEq] at hs
              rw [hs.2]; simp
            obtain ⟨m, rfl⟩ := hy e this
            trivial
          | nil =>
            simp only [Option.toList, List.cons_append, List.nil_append, List.cons.injEq] at hs
            obtain ⟨rfl, -⟩ := hs
            obtain ⟨who, a, m, r, rfl⟩ := hx3 _ rfl
            cases who with
            | none => trivial
            | some i =>
              rw [List.append_nil]
              by_cases hf : isFwd (2 * i) t = true
              · obtain ⟨b, rfl⟩ := (isFwd_iff _ _).1 hf
                have := hx2 _ _ rfl
                simp only [Option.some.injEq, VEvent.counter.injEq] at this
                obtain ⟨-, rfl, -, rfl, -⟩ := this
                exact ⟨rfl, h.fwd i _ (List.mem_of_getElem? ht)⟩
              · exfalso
                refine hx1 i ?_ _ rfl a v.world.now m r rfl
                cases t with
                | forward T a => simp [isFwd] at hf ⊢; omega
                | _ => simp

/-- The counter a site has is the one the messages so far gave it. -/
theorem vreached_lookup {lib : PowLib} {p : Profile} {n ql gc now : Nat} {v : Service} {log : List VEvent}
    (h : VReached lib p n ql gc now v log) (id : SiteId) :
    (v.world.master.getSite id).2 = regAfter (fun _ => none) 0 (masterMsgs log) id := by
  obtain ⟨-, ws, hw, hm⟩ := h
  have := lookup_wrun p ws (World.init now gc)
  rw [hw, hm] at this
  have e : lookup (World.init now gc) = fun _ => none := by funext k; rfl
  rw [e] at this
  rw [getSite_addr]
  exact congrFun this id

theorem link_ask {lib : PowLib} {p : Profile} {n ql gc now : Nat} {v : Service} {log : List VEvent}
    (hr : VReached lib p n ql gc now v log) (h : Link v log) (i : Nat) :
    Link (vStep lib p v (.ask i)).1 (log ++ (vStep lib p v (.ask i)).2) := by
  unfold vStep
  split
  · rw [List.append_nil]; exact h
  simp only
  split
  · rename_i c hc
    split
    · rename_i id hapi hpc
      split
      · rw [List.append_nil]; exact h
      · rename_i hna
        have hnone : askedFor i log = 0 := by have := h.once i; simpa [hna] using this
        have hcall : .api (.call i (.get id)) ∈ log := by
          obtain ⟨⟨ss, hs⟩, -⟩ := hr
          have := ((sinv_new lib p n ql now ss).calls i c (by rw [hs]; exact hc)).1
          rw [hs, hapi] at this
          exact mem_apiLog.1 this
        have honce : ∀ (l : List VEvent), (∀ j, askedFor j l ≤ if j = i then 1 else 0) →
            ∀ j, askedFor j (log ++ l) ≤ if j ∈ i :: v.asked then 1 else 0 := by
          intro l hl j
          rw [askedFor_append]
          have h1 := hl j
          have h2 := h.once j
          by_cases hj : j = i
          · subst hj; simp only [if_true] at h1; simp; omega
          · simp only [hj, if_false] at h1
            simp only [List.mem_cons, hj, false_or]
            omega
        by_cases hcr : v.world.crashed = true
        · simp only [hcr, if_true, List.append_nil, wstep]
          refine { fwd := h.fwd, count := h.count, once := ?_, odd := h.odd, answers := ?_, waits := fun _ _ => .inl hcr, why := h.why }
          · intro j
            have := honce [] (by intro j; simp [askedFor]) j
            simpa using this
          · intro j ans ha
            rcases List.mem_append.1 ha with ha | ha
            · exact h.answers j ans ha
            · simp at ha; rw [ha.2]; trivial
        · simp only [hcr, wstep, World.handle, World.handleAddVisitor, Bool.false_eq_true, if_false]
          have hev : ∀ x, VWhy log (.asked i id x) ↔ x = (v.world.master.getSite id).2 := by
            intro x
            rw [vreached_lookup hr id]
            exact ⟨fun h => h.2, fun h => ⟨hcall, h⟩⟩
          have hone : ∀ x, ∀ j, askedFor j [.asked i id x] ≤ if j = i then 1 else 0 := by
            intro x j
            simp only [askedFor, List.countP_cons, List.countP_nil, beq_iff_eq]
            by_cases hj : j = i
            · subst hj; simp
            · simp [hj, Ne.symm hj]
          have hcnt : ∀ x j, countedFor j [.asked i id x] = 0 := fun _ _ => rfl
          split
          · rename_i hg
            rw [hg]
            refine { fwd := ?_, count := ?_, once := honce _ (hone _), odd := h.odd, answers := ?_, waits := ?_, why := prefix_snoc h.why _ ((hev _).2 hg.symm) }
            · exact fun j a ha => (h.fwd j a ha).imp fun _ hx => List.mem_append_left _ hx
            · intro j
              rw [countedFor_append, askedFor_append, hcnt]
              exact Nat.le_trans (h.count j) (Nat.le_add_right _ _)
            · intro j ans ha
              rcases List.mem_append.1 ha with ha | ha
              · exact answered_mono _ (h.answers j ans ha)
              · simp at ha
                obtain ⟨hj, rfl⟩ := ha
                have hj : j = i := by omega
                subst hj
                exact ⟨id, by simp⟩
            · intro j hj
              rcases List.mem_cons.1 hj with rfl | hj
              · exact .inr (.inl ⟨_, List.mem_append_right _ (List.mem_singleton.2 rfl)⟩)
              · rcases h.waits j hj with h1 | ⟨x, h1⟩ | h1
                · exact absurd h1 hcr
                · exact .inr (.inl ⟨x, List.mem_append_left _ h1⟩)
                · exact .inr (.inr h1)
          · rename_i a hg
            rw [hg]
            refine { fwd := ?_, count := ?_, once := honce _ (hone _), odd := ?_, answers := ?_, waits := ?_, why := prefix_snoc h.why _ ((hev _).2 hg.symm) }
            · intro j b ha
              rcases List.mem_append.1 ha with ha | ha
              · exact (h.fwd j b ha).imp fun _ hx => List.mem_append_left _ hx
              · simp at ha
                obtain ⟨hj, rfl⟩ := ha
                have hj : j = i := by omega
                subst hj
                exact ⟨id, by simp⟩
            · intro j
              rw [countedFor_append, askedFor_append, hcnt]
              show _ + (v.world.tasks ++ [Task.forward (2 * i) a]).countP (isFwd (2 * j)) ≤ _
              rw [List.countP_append]
              have := h.count j
              have e : [Task.forward (2 * i) a].countP (isFwd (2 * j)) = askedFor j [.asked i id (some a)] := by
                simp only [askedFor, List.countP_cons, List.countP_nil, isFwd, beq_iff_eq]
                by_cases hj : i = j
                · subst hj; simp
                · rw [if_neg (by omega), if_neg hj]
              omega
            · intro t ht T hT
              rcases List.mem_append.1 ht with ht | ht
              · exact h.odd t ht T hT
              · simp at ht; subst ht; cases hT
            · exact fun j ans ha => answered_mono _ (h.answers j ans ha)
            · intro j hj
              rcases List.mem_cons.1 hj with rfl | hj
              · exact .inr (.inr ⟨a, List.mem_append_right _ (List.mem_singleton.2 rfl)⟩)
              · rcases h.waits j hj with h1 | h1 | ⟨b, h1⟩
                · exact absurd h1 hcr
                · exact .inr (.inl h1)
                · exact .inr (.inr ⟨b, List.mem_append_left _ h1⟩)
    · rw [List.append_nil]; exact h
  · rw [List.append_nil]; exact h

theorem link_step {lib : PowLib} {p : Profile} {n ql gc now : Nat} {v : Service} {log : List VEvent}
    (hr : VReached lib p n ql gc now v log) (h : Link v log) (x : VStep) :
    Link (vStep lib p v x).1 (log ++ (vStep lib p v x).2) := by
  cases x with
  | world s => exact link_world h s
  | ask i => exact link_ask hr h i
  | sys s =>
    unfold vStep
    split
    · rw [List.append_nil]; exact h
    simp only
    split
    · rename_i hd
      refine link_api h _ _ ?_
      intro j b hm
      obtain ⟨g, rfl⟩ := master_event lib p v.sys s j b hm
      cases hd
    · rw [List.append_nil]; exact h
  | hear i g =>
    unfold vStep
    split
    · rw [List.append_nil]; exact h
    simp only
    split
    · rename_i a ha
      refine link_api h _ _ ?_
      intro j b hm
      obtain ⟨g, e⟩ := master_event lib p v.sys _ j b hm
      injection e with e1 e2
      subst e1 e2
      exact heard_why h ha
    · rw [List.append_nil]; exact h
  | tick d =>
    unfold vStep
    split
    · rw [List.append_nil]; exact h
    rw [List.append_nil]
    exact { fwd := h.fwd, count := h.count, once := h.once, odd := h.odd, answers := h.answers, waits := h.waits, why := h.why }

theorem link_run (lib : PowLib) (p : Profile) (n ql gc now : Nat) (steps : List VStep) :
    Link (vRun lib p (Service.new n ql gc now) steps).1 (vRun lib p (Service.new n ql gc now) steps).2 := by
  have h0 : Link (Service.new n ql gc now) [] :=
    { fwd := by intro i a h; simp [Service.new, World.init] at h
      count := by intro i; simp [countedFor, askedFor, Service.new, World.init, isFwd]
      once := by intro i; simp [askedFor]
      odd := by intro t ht T hT; simp [Service.new, World.init] at ht; subst ht; cases hT
      answers := by intro i a h; simp [Service.new, World.init] at h
      waits := by intro i h; simp [Service.new] at h
      why := by intro pre e post h; simp at h }
  have h := vRun_inv (lib := lib) (p := p) (P := fun v log => VReached lib p n ql gc now v log ∧ Link v log)
    (fun v log x h => ⟨vreached_step v log x h.1, link_step h.1 h.2 x⟩) steps (Service.new n ql gc now) []
    ⟨⟨⟨[], rfl⟩, [], rfl, rfl⟩, h0⟩
  simpa using h.2

end MCap
