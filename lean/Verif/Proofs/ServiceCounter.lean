import Verif.Proofs.ServiceLink
import Verif.Proofs.Counter

/-!
# The counters of a service live the lives of counters by themselves
-/

namespace MCap
open Spec

theorem addVisitor_keeps (p : Profile) (m m' : MCaptcha) (h : m.addVisitor p = .ret m') :
    m'.duration = m.duration ∧ m'.defense.levels = m.defense.levels := by
  unfold MCaptcha.addVisitor at h
  cases hv : u32Succ p m.visitors with
  | panic _ => rw [hv] at h; cases h
  | ret v =>
    rw [hv] at h
    simp only [Exec.bind] at h
    cases hl : m.defense.currentLevel with
    | panic _ => rw [hl] at h; cases h
    | ret l =>
      rw [hl] at h
      simp only [Exec.bind] at h
      split at h
      · unfold Defense.tightenUp at h
        cases hu : usizeSub p m.defense.levels.length 1 with
        | panic _ => rw [hu] at h; cases h
        | ret top =>
          rw [hu] at h
          simp only [Exec.bind] at h
          by_cases hlt : m.defense.cur < top <;> simp only [hlt, if_true, if_false, Exec.bind] at h <;> cases h <;> exact ⟨rfl, rfl⟩
      · cases h
        unfold Defense.loosenUp
        split <;> exact ⟨rfl, rfl⟩

/-- What an answered visit says. -/
theorem send_visitor (p : Profile) (now : Nat) (c c' : Counter) (r : AddVisitorResult)
    (h : c.send p now .addVisitor = .ret (c', .visitor r)) :
    c.alive = true ∧ c.m.addVisitor p = .ret c'.m ∧ c'.m.getDifficulty = .ret r.difficultyFactor ∧ r.duration = c'.m.duration := by
  unfold Counter.send at h
  split at h
  · rename_i ha
    refine ⟨ha, ?_⟩
    simp only [Counter.handleAddVisitor, AddVisitorResult.new] at h
    cases hm : c.m.addVisitor p with
    | panic _ => rw [hm] at h; cases h
    | ret m' =>
      rw [hm] at h
      simp only [Exec.bind] at h
      cases hd : m'.getDifficulty with
      | panic _ => rw [hd] at h; cases h
      | ret d =>
        rw [hd] at h
        simp only [Exec.map, Exec.ret.injEq, Prod.mk.injEq, CounterReply.visitor.injEq] at h
        obtain ⟨rfl, rfl⟩ := h
        exact ⟨rfl, hd, rfl⟩
  · cases h

theorem crun_append (p : Profile) (a b : List CStep) (now : Nat) (c : Counter) {n1 : Nat} {c1 : Counter} {o1 : List CObs}
    (h : crun p now c a = .ret (n1, c1, o1)) {n2 : Nat} {c2 : Counter} {o2 : List CObs} (h2 : crun p n1 c1 b = .ret (n2, c2, o2)) :
    crun p now c (a ++ b) = .ret (n2, c2, o1 ++ o2) := by
  induction a generalizing now c o1 with
  | nil => simp only [crun, Exec.ret.injEq, Prod.mk.injEq] at h; obtain ⟨rfl, rfl, rfl⟩ := h; simpa using h2
  | cons s r ih =>
    simp only [List.cons_append, crun] at h ⊢
    cases hs : cstep p now c s with
    | panic _ => rw [hs] at h; cases h
    | ret x =>
      obtain ⟨n', c', o⟩ := x
      rw [hs] at h
      simp only [Exec.bind] at h ⊢
      cases hr : crun p n' c' r with
      | panic _ => rw [hr] at h; cases h
      | ret y =>
        obtain ⟨n'', c'', os⟩ := y
        rw [hr] at h
        simp only [Exec.map, Exec.ret.injEq, Prod.mk.injEq] at h
        obtain ⟨rfl, rfl, rfl⟩ := h
        rw [ih n' c' hr]
        simp

theorem visitTimes_append (now : Nat) (a b : List CStep) : visitTimes now (a ++ b) = visitTimes now a ++ visitTimes (clockAfter now a) b := by
  induction a generalizing now with
  | nil => rfl
  | cons s r ih =>
    cases s with
    | tick d => exact ih _
    | fire i => exact ih _
    | req m => cases m <;> simp [visitTimes, clockAfter, ih]

theorem crun_clock (p : Profile) (a : List CStep) (now : Nat) (c : Counter) {n1 : Nat} {c1 : Counter} {o1 : List CObs}
    (h : crun p now c a = .ret (n1, c1, o1)) : n1 = clockAfter now a := by
  induction a generalizing now c o1 with
  | nil => simp only [crun, Exec.ret.injEq, Prod.mk.injEq] at h; exact h.1.symm
  | cons s r ih =>
    simp only [crun] at h
    cases hs : cstep p now c s with
    | panic _ => rw [hs] at h; cases h
    | ret x =>
      obtain ⟨n', c', o⟩ := x
      rw [hs] at h
      simp only [Exec.bind] at h
      cases hr : crun p n' c' r with
      | panic _ => rw [hr] at h; cases h
      | ret y =>
        obtain ⟨n'', c'', os⟩ := y
        rw [hr] at h
        simp only [Exec.map, Exec.ret.injEq, Prod.mk.injEq] at h
        obtain ⟨rfl, rfl, rfl⟩ := h
        have := ih n' c' hr
        cases s with
        | tick d => simp only [cstep, Exec.ret.injEq, Prod.mk.injEq] at hs; obtain ⟨rfl, -, -⟩ := hs; exact this
        | fire i => simp only [cstep, Exec.ret.injEq, Prod.mk.injEq] at hs; obtain ⟨rfl, -, -⟩ := hs; exact this
        | req m =>
          simp only [cstep] at hs
          cases hm : c.send p now m with
          | panic _ => rw [hm] at hs; cases hs
          | ret z =>
            rw [hm] at hs
            simp only [Exec.map, Exec.ret.injEq, Prod.mk.injEq] at hs
            obtain ⟨rfl, -, -⟩ := hs
            exact this

/-- A plain life of a counter is a history of visits and departures of its captcha. -/
theorem crun_traffic (p : Profile) (a : List CStep) (hp : ∀ s ∈ a, plain s = true) (now : Nat) (c : Counter) {n1 : Nat} {c1 : Counter}
    {o1 : List CObs} (h : crun p now c a = .ret (n1, c1, o1)) : ∃ hist, traffic p c.m hist = .ret c1.m := by
  induction a generalizing now c o1 with
  | nil => simp only [crun, Exec.ret.injEq, Prod.mk.injEq] at h; obtain ⟨-, rfl, -⟩ := h; exact ⟨[], rfl⟩
  | cons s r ih =>
    have hp' : ∀ s ∈ r, plain s = true := fun s hs => hp s (List.mem_cons_of_mem _ hs)
    have hs0 : plain s = true := hp s List.mem_cons_self
    simp only [crun] at h
    cases hs : cstep p now c s with
    | panic _ => rw [hs] at h; cases h
    | ret x =>
      obtain ⟨n', c', o⟩ := x
      rw [hs] at h
      simp only [Exec.bind] at h
      cases hr : crun p n' c' r with
      | panic _ => rw [hr] at h; cases h
      | ret y =>
        obtain ⟨n'', c'', os⟩ := y
        rw [hr] at h
        simp only [Exec.map, Exec.ret.injEq, Prod.mk.injEq] at h
        obtain ⟨rfl, rfl, rfl⟩ := h
        obtain ⟨hist, hh⟩ := ih hp' n' c' hr
        cases s with
        | tick d => simp only [cstep, Exec.ret.injEq, Prod.mk.injEq] at hs; obtain ⟨-, rfl, -⟩ := hs; exact ⟨hist, hh⟩
        | fire i =>
          simp only [cstep, Exec.ret.injEq, Prod.mk.injEq] at hs
          obtain ⟨-, hc, -⟩ := hs
          rcases fire_cases now c i with hf | ⟨t, -, -, -, hf⟩
          · rw [hf] at hc; simp only at hc; subst hc; exact ⟨hist, hh⟩
          · rw [hf] at hc; simp only at hc; subst hc
            exact ⟨.leave t.dec :: hist, hh⟩
        | req m =>
          simp only [cstep] at hs
          cases hm : c.send p now m with
          | panic _ => rw [hm] at hs; cases hs
          | ret z =>
            obtain ⟨z1, z2⟩ := z
            rw [hm] at hs
            simp only [Exec.map, Exec.ret.injEq, Prod.mk.injEq] at hs
            obtain ⟨-, rfl, -⟩ := hs
            have hcases : z1.m = c.m ∨ c.m.addVisitor p = .ret z1.m := by
              unfold Counter.send at hm
              split at hm
              · cases m with
                | addVisitor =>
                  simp only [Counter.handleAddVisitor, AddVisitorResult.new] at hm
                  cases ha : c.m.addVisitor p with
                  | panic _ => rw [ha] at hm; cases hm
                  | ret m' =>
                    rw [ha] at hm
                    simp only [Exec.bind] at hm
                    cases hd : m'.getDifficulty with
                    | panic _ => rw [hd] at hm; cases hm
                    | ret d => rw [hd] at hm; cases hm; exact .inr rfl
                | getCurrentVisitorCount => cases hm; exact .inl rfl
                | getInternalData => cases hm; exact .inl rfl
                | setInternalData m => cases hs0
                | stop => cases hs0
              · cases hm; exact .inl rfl
            rcases hcases with e | e
            · exact ⟨hist, by rw [← e]; exact hh⟩
            · exact ⟨.visit :: hist, by simp only [traffic, e, Exec.bind]; exact hh⟩

/-! ### Counters in the world -/

/-- A plain life of counter `a`, which has been as the log says. -/
def Lived (p : Profile) (log : List VEvent) (a : Addr) (now : Nat) (c : Counter) (times : List Nat) : Prop :=
  ∃ id m t0 ops os, (registrations log)[a]? = some (id, m) ∧ crun p t0 (Counter.start m) ops = .ret (now, c, os) ∧
    (∀ s ∈ ops, plain s = true) ∧ visitTimes t0 ops = times

structure CLife (p : Profile) (w : World) (log : List VEvent) : Prop where
  len : w.counters.length = (registrations log).length
  life : ∀ (a : Nat) (c : Counter), w.counters[a]? = some c → c.alive = true → NeverRestored a log → Lived p log a w.now c (countedAt a log)
  conf : ∀ (a : Nat) (c : Counter), w.counters[a]? = some c → ∃ m, Configured log a m ∧ c.m.duration = m.duration ∧ c.m.defense.levels = m.defense.levels
  fresh : ∀ a who t msg r, .counter who a t msg r ∈ log → r ≠ .mailboxError → a < w.counters.length

/-- What a counter's answer to a visit says about the log. -/
def CWhy (p : Profile) (pre : List VEvent) : VEvent → Prop
  | .counter _ a t .addVisitor (.visitor r) =>
    (∃ m, Configured pre a m ∧ r.duration = m.duration ∧ ∃ l ∈ m.defense.levels, r.difficultyFactor = l.difficultyFactor) ∧
    (NeverRestored a pre → ∃ c, Lived p pre a t c (countedAt a pre ++ [t]) ∧ c.m.getDifficulty = .ret r.difficultyFactor ∧ r.duration = c.m.duration)
  | _ => True

theorem registrations_get {log ev : List VEvent} {a : Nat} {x : SiteId × MCaptcha} (h : (registrations log)[a]? = some x) :
    (registrations (log ++ ev))[a]? = some x := by
  rw [registrations_append, List.getElem?_append_left (lt_of_some h)]; exact h

theorem configured_mono {log : List VEvent} (ev : List VEvent) {a : Nat} {m : MCaptcha} (h : Configured log a m) : Configured (log ++ ev) a m := by
  rcases h with ⟨id, h⟩ | ⟨who, t, h⟩
  · exact .inl ⟨id, registrations_get h⟩
  · exact .inr ⟨who, t, List.mem_append_left _ h⟩

theorem lived_mono {p : Profile} {log : List VEvent} (ev : List VEvent) {a : Nat} {now : Nat} {c : Counter} {ts : List Nat}
    (h : Lived p log a now c ts) : Lived p (log ++ ev) a now c ts := by
  obtain ⟨id, m, t0, ops, os, h1, h2⟩ := h
  exact ⟨id, m, t0, ops, os, registrations_get h1, h2⟩

theorem lived_more {p : Profile} {log : List VEvent} {a : Nat} {now : Nat} {c : Counter} {ts : List Nat} (h : Lived p log a now c ts)
    (s : CStep) (hp : plain s = true) {n' : Nat} {c' : Counter} {o : CObs} (hs : cstep p now c s = .ret (n', c', o)) :
    Lived p log a n' c' (ts ++ visitTimes now [s]) := by
  obtain ⟨id, m, t0, ops, os, h1, h2, h3, h4⟩ := h
  refine ⟨id, m, t0, ops ++ [s], os ++ [o], h1, crun_append p ops [s] t0 _ h2 (by simp [crun, hs]), ?_, ?_⟩
  · intro x hx
    rcases List.mem_append.1 hx with hx | hx
    · exact h3 x hx
    · simp at hx; subst hx; exact hp
  · rw [visitTimes_append, h4, ← crun_clock p ops t0 _ h2]

theorem never_left {a : Addr} {log ev : List VEvent} (h : NeverRestored a (log ++ ev)) : NeverRestored a log :=
  fun who t m r hm => h who t m r (List.mem_append_left _ hm)

/-- Nothing happens to the counters. -/
theorem clife_quiet {p : Profile} {w w' : World} {log : List VEvent} (h : CLife p w log) (ev : List VEvent) (hc : w'.counters = w.counters)
    (hn : w'.now = w.now) (hr : registrations ev = []) (he : ∀ who a t m r, .counter who a t m r ∉ ev) : CLife p w' (log ++ ev) where
  len := by rw [hc, h.len, registrations_append, hr, List.append_nil]
  life a c hac hal hnr := by
    rw [hc] at hac
    rw [hn]
    have e : countedAt a ev = [] := by
      rw [countedAt, List.filterMap_eq_nil_iff]
      intro x hx
      cases x with
      | counter who b t m r => exact absurd hx (he _ _ _ _ _)
      | _ => rfl
    rw [countedAt_append, e, List.append_nil]
    exact lived_mono ev (h.life a c hac hal (never_left hnr))
  conf a c hac := by
    rw [hc] at hac
    obtain ⟨m, h1, h2⟩ := h.conf a c hac
    exact ⟨m, configured_mono ev h1, h2⟩
  fresh a who t msg r hm hr := by
    rw [hc]
    rcases List.mem_append.1 hm with hm | hm
    · exact h.fresh a who t msg r hm hr
    · exact absurd hm (he _ _ _ _ _)

theorem clife_tick {p : Profile} {w : World} {log : List VEvent} (h : CLife p w log) (d : Nat) : CLife p { w with now := w.now + d } log where
  len := h.len
  life a c hac hal hnr := by
    have := lived_more (h.life a c hac hal hnr) (.tick d) rfl rfl
    simpa [visitTimes] using this
  conf := h.conf
  fresh := h.fresh

theorem clife_fire {p : Profile} {w : World} {log : List VEvent} (h : CLife p w log) (a i : Nat) : CLife p (wstep p w (.fire a i)) log := by
  simp only [wstep]
  cases hc : w.counters[a]? with
  | none => exact h
  | some c =>
    have hlt := lt_of_some hc
    refine { len := by simp [h.len], life := ?_, conf := ?_, fresh := by simpa using h.fresh }
    · intro b c' hb hal hnr
      simp only [List.getElem?_set] at hb
      split at hb
      · rename_i e
        subst e
        simp only [hlt, if_true, Option.some.injEq] at hb
        subst hb
        have hal0 : c.alive = true := by
          rcases fire_cases w.now c i with hf | ⟨t, h1, -⟩
          · rw [hf] at hal; exact hal
          · exact h1
        have := lived_more (h.life a c hc hal0 hnr) (.fire i) rfl rfl
        simpa [visitTimes] using this
      · exact h.life b c' hb hal hnr
    · intro b c' hb
      simp only [List.getElem?_set] at hb
      split at hb
      · rename_i e
        subst e
        simp only [hlt, if_true, Option.some.injEq] at hb
        subst hb
        obtain ⟨m, h1, h2, h3⟩ := h.conf a c hc
        rcases fire_cases w.now c i with hf | ⟨t, -, -, -, hf⟩
        · rw [hf]; exact ⟨m, h1, h2, h3⟩
        · rw [hf]
          simp only [decrement_eq]
          exact ⟨m, h1, h2, h3⟩
      · exact h.conf b c' hb

theorem clife_add {p : Profile} {w w' : World} {log : List VEvent} (h : CLife p w log) (id : SiteId) (m : MCaptcha)
    (hc : w'.counters = w.counters ++ [Counter.start m]) (hn : w'.now = w.now) : CLife p w' (log ++ [.master (.addSite id m)]) := by
  have hreg : registrations [.master (.addSite id m)] = [(id, m)] := rfl
  have hcnt : ∀ a, countedAt a [.master (.addSite id m)] = [] := fun _ => rfl
  have hget : (registrations (log ++ [.master (.addSite id m)]))[w.counters.length]? = some (id, m) := by
    rw [registrations_append, hreg, h.len]; simp
  refine { len := by rw [hc, registrations_append, hreg]; simp [h.len], life := ?_, conf := ?_, fresh := ?_ }
  · intro a c hac hal hnr
    rw [hn, countedAt_append, hcnt, List.append_nil]
    rw [hc] at hac
    by_cases hlt : a < w.counters.length
    · rw [List.getElem?_append_left hlt] at hac
      exact lived_mono _ (h.life a c hac hal (never_left hnr))
    · have ha : a = w.counters.length := by
        have := lt_of_some hac
        simp at this
        omega
      subst ha
      simp at hac
      subst hac
      have hno : countedAt w.counters.length log = [] := by
        rw [countedAt, List.filterMap_eq_nil_iff]
        intro x hx
        cases x with
        | counter who b t msg r =>
          cases msg <;> try rfl
          cases r <;> try rfl
          simp only [ite_eq_right_iff]
          intro e
          subst e
          have := h.fresh _ _ _ _ _ hx (by simp)
          omega
        | _ => rfl
      exact ⟨id, m, w.now, [], [], hget, by rfl, by simp, by rw [hno]; rfl⟩
  · intro a c hac
    rw [hc] at hac
    by_cases hlt : a < w.counters.length
    · rw [List.getElem?_append_left hlt] at hac
      obtain ⟨x, h1, h2⟩ := h.conf a c hac
      exact ⟨x, configured_mono _ h1, h2⟩
    · have ha : a = w.counters.length := by
        have := lt_of_some hac
        simp at this
        omega
      subst ha
      simp at hac
      subst hac
      exact ⟨m, .inl ⟨id, hget⟩, rfl, rfl⟩
  · intro a who t msg r hm hr
    rw [hc]
    simp only [List.mem_append, List.mem_singleton, reduceCtorEq, or_false] at hm
    have := h.fresh a who t msg r hm hr
    simp; omega

/-- A message to a counter. -/
theorem clife_send {p : Profile} {w w' : World} {log : List VEvent} (h : CLife p w log) (who : Option Nat) (a : Addr) (msg : CounterMsg)
    (hc : w'.counters = (w.sendCounter p a msg).1.counters) (hn : w'.now = w.now) :
    CLife p w' (log ++ [.counter who a w.now msg (w.sendCounter p a msg).2]) ∧ CWhy p log (.counter who a w.now msg (w.sendCounter p a msg).2) := by
  have hlen : (w.sendCounter p a msg).1.counters.length = w.counters.length := (sendCounter_master p w a msg).2.2.2.2.2.1
  have hoth := (sendCounter_master p w a msg).2.2.2.2.2.2
  have hreg : ∀ r, registrations [.counter who a w.now msg r] = [] := fun _ => rfl
  have hcb : ∀ b r, b ≠ a → countedAt b [.counter who a w.now msg r] = [] := by
    intro b r hb
    rw [countedAt, List.filterMap_eq_nil_iff]
    intro x hx
    simp only [List.mem_singleton] at hx
    subst hx
    cases msg <;> try rfl
    cases r <;> try rfl
    simp only [if_neg (Ne.symm hb)]
  have hfresh : ∀ b who' t msg' r, .counter who' b t msg' r ∈ log ++ [.counter who a w.now msg (w.sendCounter p a msg).2] → r ≠ .mailboxError →
      b < w'.counters.length := by
    intro b who' t msg' r hm hr
    rw [hc, hlen]
    rcases List.mem_append.1 hm with hm | hm
    · exact h.fresh b who' t msg' r hm hr
    · simp only [List.mem_singleton, VEvent.counter.injEq] at hm
      obtain ⟨-, rfl, -, -, rfl⟩ := hm
      rcases Nat.lt_or_ge b w.counters.length with hb | hb
      · exact hb
      · exfalso
        apply hr
        simp [World.sendCounter, List.getElem?_eq_none hb]
  -- the counter concerned
  have key : ∀ c, w.counters[a]? = some c → ∃ c', (w.sendCounter p a msg).1.counters[a]? = some c' ∧
      (c'.alive = true → c.alive = true ∧ c.send p w.now msg = .ret (c', (w.sendCounter p a msg).2)) ∧
      ((∃ m, msg = .setInternalData m ∧ (w.sendCounter p a msg).2 = .done ∧ c'.m = m) ∨
        c'.m.duration = c.m.duration ∧ c'.m.defense.levels = c.m.defense.levels) ∧
      (∀ r, (w.sendCounter p a msg).2 = .visitor r → c.send p w.now msg = .ret (c', .visitor r)) := by
    intro c hac
    have hlt := lt_of_some hac
    unfold World.sendCounter
    rw [hac]
    simp only
    cases hs : c.send p w.now msg with
    | panic e =>
      refine ⟨{ c with alive := false, timers := [] }, by simp [hlt], by simp, .inr ⟨rfl, rfl⟩, by simp⟩
    | ret x =>
      obtain ⟨c', r⟩ := x
      refine ⟨c', by simp [hlt], ?_, ?_, ?_⟩
      · intro hal
        refine ⟨?_, rfl⟩
        unfold Counter.send at hs
        split at hs
        · rename_i h; exact h
        · cases hs; exact hal
      · unfold Counter.send at hs
        split at hs
        · cases msg with
          | addVisitor =>
            right
            have hsend : c.send p w.now .addVisitor = .ret (c', r) := by
              unfold Counter.send; rename_i ha; rw [if_pos ha]; exact hs
            cases r with
            | visitor r => exact addVisitor_keeps p _ _ (send_visitor p w.now c c' r hsend).2.1
            | _ =>
              exfalso
              cases hv : c.handleAddVisitor p w.now with
              | panic _ => rw [hv] at hs; cases hs
              | ret y => rw [hv] at hs; cases hs
          | getCurrentVisitorCount => cases hs; exact .inr ⟨rfl, rfl⟩
          | getInternalData => cases hs; exact .inr ⟨rfl, rfl⟩
          | setInternalData m => cases hs; exact .inl ⟨m, rfl, rfl, rfl⟩
          | stop => cases hs; exact .inr ⟨rfl, rfl⟩
        · cases hs; exact .inr ⟨rfl, rfl⟩
      · rintro r' rfl; rfl
  have hlife : ∀ c c' r, w.counters[a]? = some c → c.alive = true → NeverRestored a log → c.send p w.now msg = .ret (c', r) →
      (∀ m, msg ≠ .setInternalData m) → msg ≠ .stop → Lived p log a w.now c' (countedAt a log ++ visitTimes w.now [.req msg]) := by
    intro c c' r hac hal hnr hs h1 h2
    refine lived_more (h.life a c hac hal hnr) (.req msg) ?_ (o := .reply r) (by simp [cstep, hs])
    cases msg <;> first | rfl | (exact absurd rfl (h1 _)) | exact absurd rfl h2
  constructor
  · refine { len := by rw [hc, hlen, h.len, registrations_append, hreg, List.append_nil], life := ?_, conf := ?_, fresh := hfresh }
    · intro b c' hb hal hnr
      rw [hc] at hb
      rw [hn, countedAt_append]
      by_cases hba : b = a
      · subst hba
        have hlt : b < w.counters.length := by rw [← hlen]; exact lt_of_some hb
        obtain ⟨c'', k1, k2, -, -⟩ := key _ (List.getElem?_eq_getElem hlt)
        rw [hb] at k1
        injection k1 with k1
        subst k1
        obtain ⟨ha, hs⟩ := k2 hal
        have hnset : ∀ m, msg ≠ .setInternalData m := by
          rintro m rfl
          exact hnr who w.now m _ (List.mem_append_right _ (List.mem_singleton.2 rfl))
        have hnstop : msg ≠ .stop := by
          rintro rfl
          unfold Counter.send at hs
          rw [if_pos ha] at hs
          simp only [Exec.ret.injEq, Prod.mk.injEq] at hs
          rw [← hs.1] at hal
          simp [Counter.handleStop] at hal
        have := hlife _ _ _ (List.getElem?_eq_getElem hlt) ha (never_left hnr) hs hnset hnstop
        have e : countedAt b [.counter who b w.now msg (w.sendCounter p b msg).2] = visitTimes w.now [.req msg] := by
          cases msg with
          | addVisitor =>
            rcases sendCounter_addVisitor p w b with ⟨r, hr⟩ | hr
            · rw [hr]; simp [countedAt, visitTimes]
            · exfalso
              rw [hr] at hs
              unfold Counter.send at hs
              rw [if_pos ha] at hs
              simp only at hs
              cases hv : (w.counters[b]).handleAddVisitor p w.now with
              | panic _ => rw [hv] at hs; cases hs
              | ret y => rw [hv] at hs; cases hs
          | getCurrentVisitorCount => rfl
          | getInternalData => rfl
          | setInternalData m => exact absurd rfl (hnset m)
          | stop => exact absurd rfl hnstop
        rw [e]
        exact lived_mono _ this
      · rw [hoth b hba] at hb
        rw [hcb b _ hba, List.append_nil]
        exact lived_mono _ (h.life b c' hb hal (never_left hnr))
    · intro b c' hb
      rw [hc] at hb
      by_cases hba : b = a
      · subst hba
        have hlt : b < w.counters.length := by rw [← hlen]; exact lt_of_some hb
        obtain ⟨c'', k1, -, k3, -⟩ := key _ (List.getElem?_eq_getElem hlt)
        rw [hb] at k1
        injection k1 with k1
        subst k1
        rcases k3 with ⟨m, rfl, hr, hm⟩ | ⟨k3, k4⟩
        · refine ⟨m, .inr ⟨who, w.now, ?_⟩, by rw [hm], by rw [hm]⟩
          rw [hr]; simp
        · obtain ⟨m, h1, h2, h3⟩ := h.conf b _ (List.getElem?_eq_getElem hlt)
          exact ⟨m, configured_mono _ h1, by rw [k3, h2], by rw [k4, h3]⟩
      · rw [hoth b hba] at hb
        obtain ⟨m, h1, h2⟩ := h.conf b c' hb
        exact ⟨m, configured_mono _ h1, h2⟩
  · cases msg <;> try trivial
    cases hr : (w.sendCounter p a .addVisitor).2 <;> try trivial
    rename_i r
    have hlt : a < w.counters.length := by
      rcases Nat.lt_or_ge a w.counters.length with hb | hb
      · exact hb
      · simp [World.sendCounter, List.getElem?_eq_none hb] at hr
    obtain ⟨c', -, -, -, k5⟩ := key _ (List.getElem?_eq_getElem hlt)
    have hs := k5 r hr
    obtain ⟨ha, h1, h2, h3⟩ := send_visitor p w.now _ c' r hs
    obtain ⟨e1, e2⟩ := addVisitor_keeps p _ _ h1
    constructor
    · obtain ⟨m, g1, g2, g3⟩ := h.conf a _ (List.getElem?_eq_getElem hlt)
      refine ⟨m, g1, by rw [h3, e1, g2], ?_⟩
      simp only [MCaptcha.getDifficulty, Defense.getDifficulty, vecIndex] at h2
      rw [← g3, ← e2]
      cases hx : c'.m.defense.levels[c'.m.defense.cur]? with
      | none => rw [hx] at h2; cases h2
      | some l =>
        rw [hx] at h2
        simp only [Exec.map, Exec.ret.injEq] at h2
        exact ⟨l, List.mem_of_getElem? hx, h2.symm⟩
    · intro hnr
      exact ⟨c', hlife _ _ _ (List.getElem?_eq_getElem hlt) ha hnr hs (by simp) (by simp), h2, h3⟩

end MCap
