import Verif.Proofs.SystemQuiet
import Verif.Proofs.QueueAbort

namespace MCap
open Spec

/-! ### Every schedule without new calls changes only boundedly much -/

theorem changes_le (lib : PowLib) (p : Profile) (n ql now : Nat) (later done : List SStep) (h : ∀ a, .call a ∉ later) :
    changes lib p (sysRun lib p (Sys.new n ql now) done).1 later ≤ sysW (sysRun lib p (Sys.new n ql now) done).1 := by
  induction later generalizing done with
  | nil => exact Nat.zero_le _
  | cons st r ih =>
    have e : (sysStep lib p (sysRun lib p (Sys.new n ql now) done).1 st).1 = (sysRun lib p (Sys.new n ql now) (done ++ [st])).1 := by
      rw [sysRun_append]; rfl
    have hr := ih (done ++ [st]) (fun a ha => h a (List.mem_cons_of_mem _ ha))
    have hw := step_weight lib p (sysRun lib p (Sys.new n ql now) done).1 st (fun a e => h a (by rw [e]; simp))
      (sinv_new lib p n ql now done).timers
    unfold changes
    rw [e]
    rw [e] at hw
    rcases hw with ⟨hd, hw⟩ | hw | hw
    · rw [if_pos (.inr hd)]; omega
    · rw [if_pos (.inl hw)]
      rw [hw] at hr ⊢; omega
    · split <;> omega

/-- What goes on by itself comes to an end. -/
theorem settles (lib : PowLib) (p : Profile) (n ql now : Nat) (k : Nat) (done : List SStep)
    (h : sysW (sysRun lib p (Sys.new n ql now) done).1 ≤ k) :
    ∃ later, (∀ st ∈ later, goesOn st = true) ∧ Quiescent lib p (sysRun lib p (Sys.new n ql now) (done ++ later)).1 := by
  induction k generalizing done with
  | zero =>
    refine ⟨[], by simp, ?_⟩
    rw [List.append_nil]
    intro st hst
    rcases step_weight lib p (sysRun lib p (Sys.new n ql now) done).1 st (by rintro a rfl; simp [goesOn] at hst)
      (sinv_new lib p n ql now done).timers with ⟨⟨d, rfl⟩, -⟩ | hw | hw
    · simp [goesOn] at hst
    · exact hw
    · omega
  | succ k ih =>
    by_cases hq : Quiescent lib p (sysRun lib p (Sys.new n ql now) done).1
    · exact ⟨[], by simp, by rw [List.append_nil]; exact hq⟩
    · obtain ⟨st, hst⟩ := Classical.not_forall.1 hq
      obtain ⟨hst, hne⟩ := Classical.not_imp.1 hst
      have e : (sysStep lib p (sysRun lib p (Sys.new n ql now) done).1 st).1 = (sysRun lib p (Sys.new n ql now) (done ++ [st])).1 := by
        rw [sysRun_append]; rfl
      rcases step_weight lib p (sysRun lib p (Sys.new n ql now) done).1 st (by rintro a rfl; simp [goesOn] at hst)
        (sinv_new lib p n ql now done).timers with ⟨⟨d, rfl⟩, -⟩ | hw | hw
      · simp [goesOn] at hst
      · exact absurd hw hne
      · rw [e] at hw
        obtain ⟨later, h1, h2⟩ := ih (done ++ [st]) (by omega)
        refine ⟨st :: later, ?_, by simpa using h2⟩
        intro x hx
        rcases List.mem_cons.1 hx with rfl | hx
        · exact hst
        · exact h1 x hx

/-! ### Calls and the log -/

structure DInv (s : Sys) (log : List SEvent) : Prop where
  made : ∀ i a, .call i a ∈ log → ∃ c, s.calls[i]? = some c ∧ c.api = a
  gone : ∀ (i : Nat) (c : Call), s.calls[i]? = some c → c.live = false → .cancelled i ∈ log
  over : ∀ (i : Nat) (c : Call), s.calls[i]? = some c → c.pc = .done → .panicked i ∈ log ∨ ∃ r, .ret i c.api r ∈ log

theorem local_dinv {lib : PowLib} {i : Nat} {c c' : Call} {ev : List SEvent} (m : Local lib i c c' ev) :
    c'.api = c.api ∧ (c'.live = false → c.live = false ∨ .cancelled i ∈ ev) ∧ (c'.pc = .done → c.pc = .done ∨ ∃ r, .ret i c.api r ∈ ev) ∧
    ∀ j a, .call j a ∉ ev := by
  cases m with
  | masterErr id a r h1 h2 hl h3 => exact ⟨rfl, fun h => .inl h, fun _ => .inr ⟨_, List.mem_cons_of_mem _ List.mem_cons_self⟩, by simp⟩
  | masterOk id r g h1 h2 hl => exact ⟨rfl, fun h => .inl h, by simp, by simp⟩
  | retPow r cfg h2 hl => exact ⟨rfl, fun h => .inl h, fun _ => .inr ⟨_, List.mem_cons_self⟩, by simp⟩
  | notFound work ip h1 h2 hl => exact ⟨rfl, fun h => .inl h, fun _ => .inr ⟨_, List.mem_cons_self⟩, by simp⟩
  | wrongKey work ip cfg h1 h2 hk hl => exact ⟨rfl, fun h => .inl h, fun _ => .inr ⟨_, List.mem_cons_self⟩, by simp⟩
  | stored r t d h2 hl => exact ⟨rfl, fun h => .inl h, fun _ => .inr ⟨_, List.mem_cons_self⟩, by simp⟩
  | checked b h2 hl => exact ⟨rfl, fun h => .inl h, fun _ => .inr ⟨_, List.mem_cons_self⟩, by simp⟩
  | accepted cfg h2 hl => exact ⟨rfl, fun h => .inl h, by simp, by simp⟩
  | refused cfg h2 hl => exact ⟨rfl, fun h => .inl h, fun _ => .inr ⟨_, List.mem_cons_self⟩, by simp⟩
  | lost cfg h2 hl => exact ⟨rfl, fun h => .inl h, fun _ => .inr ⟨_, List.mem_cons_self⟩, by simp⟩
  | pollNone cfg job ch h2 hj hr hl => exact ⟨rfl, fun h => .inl h, fun h => .inl h, by simp⟩
  | pollBad cfg job ch h2 hj hr hl => exact ⟨rfl, fun h => .inl h, fun _ => .inr ⟨_, List.mem_cons_self⟩, by simp⟩
  | pollGood cfg job ch g h2 hj hr hl => exact ⟨rfl, fun h => .inl h, by simp, by simp⟩
  | gone m k r h2 hl hr => exact ⟨rfl, fun h => .inl h, fun _ => .inr ⟨_, List.mem_cons_self⟩, by simp⟩
  | work job ch hj hf => exact ⟨rfl, fun h => .inl h, fun h => .inl h, by simp⟩
  | cancel hl hd => exact ⟨rfl, fun _ => .inr (by simp), fun h => .inl h, by simp⟩

theorem dinv_set {s : Sys} {log ev : List SEvent} (h : DInv s log) {i : Nat} {c c' : Call} (hc : s.calls[i]? = some c) (q : Queue) (w : CacheWorld)
    (ha : c'.api = c.api) (hl : c'.live = false → c.live = false ∨ .cancelled i ∈ ev)
    (hd : c'.pc = .done → c.pc = .done ∨ .panicked i ∈ ev ∨ ∃ r, .ret i c.api r ∈ ev) (he : ∀ j a, .call j a ∉ ev) :
    DInv (({ s with queue := q, cache := w } : Sys).setCall i c') (log ++ ev) := by
  refine ⟨?_, ?_, ?_⟩
  · intro j a hm
    rcases List.mem_append.1 hm with hm | hm
    · obtain ⟨d, hd, e⟩ := h.made j a hm
      simp only [Sys.setCall]
      by_cases e' : i = j
      · subst e'
        rw [hc] at hd; cases hd
        exact ⟨c', by rw [List.getElem?_set]; simp [lt_of_some hc], by rw [ha, e]⟩
      · exact ⟨d, by rw [List.getElem?_set_ne e']; exact hd, e⟩
    · exact absurd hm (he j a)
  · intro j d hj hlive
    simp only [Sys.setCall] at hj
    rw [List.getElem?_set] at hj
    split at hj
    · rename_i e
      subst e
      simp [lt_of_some hc] at hj
      subst hj
      rcases hl hlive with h' | h'
      · exact List.mem_append_left _ (h.gone i c hc h')
      · exact List.mem_append_right _ h'
    · exact List.mem_append_left _ (h.gone j d hj hlive)
  · intro j d hj hdone
    simp only [Sys.setCall] at hj
    rw [List.getElem?_set] at hj
    split at hj
    · rename_i e
      subst e
      simp [lt_of_some hc] at hj
      subst hj
      rw [ha]
      rcases hd hdone with h' | h' | ⟨r, h'⟩
      · exact (h.over i c hc h').imp (List.mem_append_left _) (fun ⟨r, x⟩ => ⟨r, List.mem_append_left _ x⟩)
      · exact .inl (List.mem_append_right _ h')
      · exact .inr ⟨r, List.mem_append_right _ h'⟩
    · exact (h.over j d hj hdone).imp (List.mem_append_left _) (fun ⟨r, x⟩ => ⟨r, List.mem_append_left _ x⟩)

theorem dinv_queue {s : Sys} {log : List SEvent} (h : DInv s log) (q : Queue) (ev : List QEvent) :
    DInv { s with queue := q, calls := s.calls.mapIdx (Call.settle q ev) } (log ++ ev.map .queue) := by
  refine ⟨?_, ?_, ?_⟩
  · intro j a hm
    rcases List.mem_append.1 hm with hm | hm
    · obtain ⟨d, hd, e⟩ := h.made j a hm
      exact ⟨_, by simp only [List.getElem?_mapIdx, hd, Option.map_some]; rfl, by rw [settle_api, e]⟩
    · simp at hm
  · intro j d hj hlive
    simp only [List.getElem?_mapIdx, Option.map_eq_some_iff] at hj
    obtain ⟨c0, hc0, rfl⟩ := hj
    rw [settle_live] at hlive
    exact List.mem_append_left _ (h.gone j c0 hc0 hlive)
  · intro j d hj hdone
    simp only [List.getElem?_mapIdx, Option.map_eq_some_iff] at hj
    obtain ⟨c0, hc0, rfl⟩ := hj
    rw [settle_api]
    have : c0.pc = .done := by
      rcases settle_pc q ev j c0 with e | ⟨cfg, e, ⟨e', -⟩ | ⟨e', -⟩ | ⟨e', -⟩⟩
      · rw [← e]; exact hdone
      all_goals rw [hdone] at e'; cases e'
    exact (h.over j c0 hc0 this).imp (List.mem_append_left _) (fun ⟨r, x⟩ => ⟨r, List.mem_append_left _ x⟩)

theorem dinv_move {lib : PowLib} {p : Profile} {s s' : Sys} {log ev : List SEvent} (h : DInv s log) (m : Move lib p s s' ev) :
    DInv s' (log ++ ev) := by
  have hmono : ∀ (ev : List SEvent) (w : CacheWorld), (∀ j a, .call j a ∉ ev) → DInv { s with cache := w } (log ++ ev) := by
    intro ev w he
    refine ⟨?_, ?_, ?_⟩
    · intro j a hm
      rcases List.mem_append.1 hm with hm | hm
      · exact h.made j a hm
      · exact absurd hm (he j a)
    · intro j d hj hl; exact List.mem_append_left _ (h.gone j d hj hl)
    · intro j d hj hd; exact (h.over j d hj hd).imp (List.mem_append_left _) (fun ⟨r, x⟩ => ⟨r, List.mem_append_left _ x⟩)
  cases m with
  | idle => rw [List.append_nil]; exact h
  | «local» i c c' _ hc m =>
    obtain ⟨a1, a2, a3, a4⟩ := local_dinv m
    exact dinv_set h hc s.queue s.cache a1 a2 (fun e => (a3 e).imp id .inr) a4
  | start a hq =>
    refine ⟨?_, ?_, ?_⟩
    · intro j b hm
      rcases List.mem_append.1 hm with hm | hm
      · obtain ⟨d, hd, e⟩ := h.made j b hm
        exact ⟨d, by rw [List.getElem?_append_left (lt_of_some hd)]; exact hd, e⟩
      · simp at hm
        obtain ⟨rfl, rfl⟩ := hm
        exact ⟨Call.start b, by simp, rfl⟩
    · intro j d hj hl
      simp only [List.getElem?_append] at hj
      split at hj
      · exact List.mem_append_left _ (h.gone j d hj hl)
      · have : d = Call.start a := by
          have := List.mem_of_getElem? hj
          simpa using this
        subst this; simp [Call.start] at hl
    · intro j d hj hd
      simp only [List.getElem?_append] at hj
      split at hj
      · exact (h.over j d hj hd).imp (List.mem_append_left _) (fun ⟨r, x⟩ => ⟨r, List.mem_append_left _ x⟩)
      · have : d = Call.start a := by
          have := List.mem_of_getElem? hj
          simpa using this
        subst this
        cases a <;> simp [Call.start] at hd
  | cache i c m k hc h2 =>
    exact dinv_set h hc s.queue (s.cache.handle m).1 rfl (fun e => .inl e) (by simp) (by simp)
  | submit i c work ip cfg hc h1 h2 hk hl hlis hcl =>
    exact dinv_set h hc (qStep p s.queue (.submit ip i)).1 s.cache rfl (fun e => .inl e) (by simp) (by simp)
  | panic i c cfg work ip hc h1 h2 hl hlis hcl =>
    exact dinv_set h hc s.queue s.cache rfl (fun e => .inl e) (fun _ => .inr (.inl (by simp))) (by simp)
  | queue qs hm => exact dinv_queue h _ _
  | shutdown hs => exact dinv_queue h _ _
  | expire k => exact hmono _ _ (by simp)
  | tick d => exact hmono _ _ (by simp)

theorem dinv_new (lib : PowLib) (p : Profile) (n ql now : Nat) (steps : List SStep) :
    DInv (sysRun lib p (Sys.new n ql now) steps).1 (sysRun lib p (Sys.new n ql now) steps).2 := by
  suffices h : ∀ (s : Sys) (log : List SEvent), DInv s log → DInv (sysRun lib p s steps).1 (log ++ (sysRun lib p s steps).2) by
    have := h (Sys.new n ql now) [] ⟨by simp, by intro i c hc; simp [Sys.new] at hc, by intro i c hc; simp [Sys.new] at hc⟩
    simpa using this
  induction steps with
  | nil => intro s log h; simpa [sysRun] using h
  | cons st r ih =>
    intro s log h
    have := ih _ _ (dinv_move h (sysStep_move lib p s st))
    simpa [sysRun, List.append_assoc] using this

/-! ### Also with crashes: a job that nobody holds any more is dropped -/

structure VInv (s : Sys) : Prop where
  job : ∀ (i : Nat) (c : Call) job ch, s.calls[i]? = some c → c.job = some (job, ch) → Held s.queue i ∨ ∃ b, ch.pc = .dropped b
  wait : ∀ (i : Nat) (c : Call) cfg, s.calls[i]? = some c → c.pc = .awaitAdd cfg → Held s.queue i

theorem workerStep_dropped (q : QueuedWork) (ch : VerdictChannel) (b : Bool) (h : ch.pc = .dropped b) :
    ((ch.workerStep q).getD ch).pc = .dropped b := by
  unfold VerdictChannel.workerStep
  rw [h]; simp [h]

theorem local_vinv {lib : PowLib} {i : Nat} {c c' : Call} {ev : List SEvent} (m : Local lib i c c' ev) :
    (∀ job ch', c'.job = some (job, ch') → ∃ ch, c.job = some (job, ch) ∧ ∀ b, ch.pc = .dropped b → ch'.pc = .dropped b) ∧
    ∀ cfg, c'.pc = .awaitAdd cfg → c.pc = .awaitAdd cfg := by
  have hrx : ∀ job ch', (c.job.map fun (q, ch) => (q, VerdictChannel.dropRx ch)) = some (job, ch') →
      ∃ ch, c.job = some (job, ch) ∧ ∀ b, ch.pc = .dropped b → ch'.pc = .dropped b := by
    intro job ch' h
    obtain ⟨⟨x, ch⟩, h1, h2⟩ := Option.map_eq_some_iff.1 h
    cases h2
    exact ⟨ch, h1, fun _ h => h⟩
  have hover : (∀ job ch', c.over.job = some (job, ch') → ∃ ch, c.job = some (job, ch) ∧ ∀ b, ch.pc = .dropped b → ch'.pc = .dropped b) ∧
      ∀ cfg, c.over.pc = .awaitAdd cfg → c.pc = .awaitAdd cfg := ⟨hrx, by intro cfg h; cases h⟩
  cases m with
  | masterErr => exact hover
  | masterOk => exact ⟨fun job ch h => ⟨ch, h, fun _ h => h⟩, by intro cfg h; cases h⟩
  | retPow => exact hover
  | notFound => exact hover
  | wrongKey => exact hover
  | stored => exact hover
  | checked => exact hover
  | accepted => exact ⟨fun job ch h => ⟨ch, h, fun _ h => h⟩, by intro cfg h; cases h⟩
  | refused => exact hover
  | lost => exact hover
  | pollNone cfg job ch h2 hj hr hl =>
    refine ⟨?_, fun _ h => h⟩
    intro job' ch' h
    cases h
    exact ⟨ch, hj, fun b h => by rw [poll_pc]; exact h⟩
  | pollBad cfg job ch h2 hj hr hl =>
    refine ⟨?_, by intro cfg h; cases h⟩
    intro job' ch' h
    cases h
    exact ⟨ch, hj, fun b h => by show ch.poll.pc = _; rw [poll_pc]; exact h⟩
  | pollGood cfg job ch g h2 hj hr hl =>
    refine ⟨?_, by intro cfg h; cases h⟩
    intro job' ch' h
    cases h
    exact ⟨ch, hj, fun b h => by rw [poll_pc]; exact h⟩
  | gone => exact hover
  | work job ch hj hf =>
    refine ⟨?_, fun _ h => h⟩
    intro job' ch' h
    cases h
    exact ⟨ch, hj, fun b h => workerStep_dropped job ch b h⟩
  | cancel => exact ⟨hrx, fun _ h => h⟩

theorem vinv_set {s : Sys} (h : VInv s) {i : Nat} {c c' : Call} (hc : s.calls[i]? = some c)
    (h1 : ∀ job ch', c'.job = some (job, ch') → ∃ ch, c.job = some (job, ch) ∧ ∀ b, ch.pc = .dropped b → ch'.pc = .dropped b)
    (h2 : ∀ cfg, c'.pc = .awaitAdd cfg → c.pc = .awaitAdd cfg) (w : CacheWorld) : VInv (({ s with cache := w } : Sys).setCall i c') := by
  have hget : ∀ (j : Nat) (d : Call), (s.calls.set i c')[j]? = some d → (j = i ∧ d = c') ∨ s.calls[j]? = some d := by
    intro j d hd
    rw [List.getElem?_set] at hd
    split at hd
    · rename_i e
      subst e
      simp [lt_of_some hc] at hd
      exact .inl ⟨rfl, hd.symm⟩
    · exact .inr hd
  refine ⟨?_, ?_⟩
  · intro j d job ch' hd hj
    rcases hget j d hd with ⟨rfl, rfl⟩ | hd
    · obtain ⟨ch, a, b⟩ := h1 job ch' hj
      rcases h.job j c job ch hc a with x | ⟨y, x⟩
      · exact .inl x
      · exact .inr ⟨y, b y x⟩
    · exact h.job j d job ch' hd hj
  · intro j d cfg hd hp
    rcases hget j d hd with ⟨rfl, rfl⟩ | hd
    · exact h.wait j c cfg hc (h2 cfg hp)
    · exact h.wait j d cfg hd hp

theorem vinv_queue {s : Sys} (h : VInv s) (q : Queue) (ev : List QEvent) :
    VInv { s with queue := q, calls := s.calls.mapIdx (Call.settle q ev) } := by
  refine ⟨?_, ?_⟩
  · intro i c job ch hc hj
    simp only [List.getElem?_mapIdx, Option.map_eq_some_iff] at hc
    obtain ⟨c0, hc0, rfl⟩ := hc
    rw [settle_job] at hj
    split at hj
    · rename_i hh; exact .inl ((holds_iff _ _).1 hh)
    · obtain ⟨x, -, e⟩ := Option.map_eq_some_iff.1 hj
      cases e
      right
      unfold releaseCh
      split
      · rename_i b hb; exact ⟨b, hb⟩
      · exact ⟨true, rfl⟩
      · exact ⟨false, rfl⟩
  · intro i c cfg hc hp
    simp only [List.getElem?_mapIdx, Option.map_eq_some_iff] at hc
    obtain ⟨c0, hc0, rfl⟩ := hc
    have h0 : c0.pc = .awaitAdd cfg := by
      rcases settle_pc q ev i c0 with e | ⟨cfg', -, ⟨e, -⟩ | ⟨e, -⟩ | ⟨e, -⟩⟩
      · rw [← e]; exact hp
      all_goals rw [hp] at e; cases e
    exact (holds_iff _ _).1 (settle_awaits q ev i c0 cfg h0 hp).2.2

theorem vinv_move {lib : PowLib} {p : Profile} {s s' : Sys} {log ev : List SEvent} (hji : JInv lib s log) (h : VInv s)
    (m : Move lib p s s' ev) : VInv s' := by
  cases m with
  | idle => exact h
  | «local» i c c' _ hc m => exact vinv_set h hc (local_vinv m).1 (local_vinv m).2 s.cache
  | start a hq =>
    have hnew : ∀ (j : Nat) (d : Call), (s.calls ++ [Call.start a])[j]? = some d → s.calls[j]? = some d ∨ d = Call.start a := by
      intro j d hd
      rw [List.getElem?_append] at hd
      split at hd
      · exact .inl hd
      · right
        have := List.mem_of_getElem? hd
        simpa using this
    refine ⟨?_, ?_⟩
    · intro i c job ch hc hj
      rcases hnew i c hc with hc | rfl
      · exact h.job i c job ch hc hj
      · cases hj
    · intro i c cfg hc hp
      rcases hnew i c hc with hc | rfl
      · exact h.wait i c cfg hc hp
      · cases a <;> cases hp
  | cache i c m k hc h2 =>
    refine vinv_set h hc ?_ ?_ _
    · intro job ch h; exact ⟨ch, h, fun _ h => h⟩
    · intro cfg h; cases h
  | submit i c work ip cfg hc h1 h2 hk hl hlis hcl =>
    have hopen : s.queue.closed = false := by
      cases hx : s.queue.closed with
      | false => rfl
      | true =>
        have := hji.fin hx i c hc hl
        rw [h2] at this; cases this
    have hst : qStep p s.queue (.submit ip i) = ({ s.queue with mailbox := s.queue.mailbox ++ [.schedule ip i] }, []) := by
      unfold qStep
      rw [if_neg hcl]
      simp only
      rw [if_pos ⟨hopen, hlis⟩]
    rw [hst]
    have hmono : ∀ j, Held s.queue j → Held { s.queue with mailbox := s.queue.mailbox ++ [.schedule ip i] } j := by
      rintro j (⟨a, ⟨x, b⟩ | b⟩ | b)
      · exact .inl ⟨a, .inl ⟨x, List.mem_append_left _ b⟩⟩
      · exact .inl ⟨a, .inr b⟩
      · exact .inr b
    have hi : Held { s.queue with mailbox := s.queue.mailbox ++ [.schedule ip i] } i := .inl ⟨hlis, .inl ⟨ip, by simp⟩⟩
    refine ⟨?_, ?_⟩
    · intro j d job ch hd hj
      simp only [Sys.setCall] at hd ⊢
      rw [List.getElem?_set] at hd
      split at hd
      · rename_i e
        subst e
        exact .inl hi
      · exact (h.job j d job ch hd hj).imp (hmono j) id
    · intro j d cfg hd hp
      simp only [Sys.setCall] at hd ⊢
      rw [List.getElem?_set] at hd
      split at hd
      · rename_i e
        subst e
        exact hi
      · exact hmono j (h.wait j d cfg hd hp)
  | panic i c cfg work ip hc h1 h2 hl hlis hcl =>
    refine vinv_set h hc ?_ (by intro cfg h; cases h) s.cache
    intro job ch' e
    obtain ⟨⟨x, ch⟩, h1, h2⟩ := Option.map_eq_some_iff.1 e
    cases h2
    exact ⟨ch, h1, fun _ h => h⟩
  | queue qs hm => exact vinv_queue h _ _
  | shutdown hs => exact vinv_queue h _ _
  | expire k => exact ⟨h.job, h.wait⟩
  | tick d => exact ⟨h.job, h.wait⟩

theorem vinv_new (lib : PowLib) (p : Profile) (n ql now : Nat) (steps : List SStep) : VInv (sysRun lib p (Sys.new n ql now) steps).1 := by
  suffices h : ∀ (later done : List SStep), VInv (sysRun lib p (Sys.new n ql now) done).1 →
      VInv (sysRun lib p (Sys.new n ql now) (done ++ later)).1 by
    have := h steps [] ⟨by intro i c job ch hc; simp [sysRun, Sys.new] at hc, by intro i c cfg hc; simp [sysRun, Sys.new] at hc⟩
    simpa using this
  intro later
  induction later with
  | nil => intro done h; rw [List.append_nil]; exact h
  | cons st r ih =>
    intro done h
    rw [List.append_cons]
    apply ih
    rw [sysRun_append]
    simp only [sysRun]
    exact vinv_move (jinv_new lib p n ql now done) h (sysStep_move lib p _ st)

/-- A job on a worker was accepted. -/
theorem worker_accepted {n ql : Nat} {q : Queue} {log : List SEvent} (hi : QInv n ql q (queueTrace log)) {w : Nat} {r : Worker} {i : Nat}
    (hr : q.inner.runners[w]? = some r) (ha : r.status = .alive) (h : r.running = some i ∨ WorkerMsg.prove i ∈ r.inbox) : accN i log ≠ 0 := by
  have h1 : i ∈ handedTo w (queueTrace log) := by
    rw [hi.wrk w r hr (by rw [ha]; simp)]
    simp only [List.mem_append]
    right
    rcases h with h | h
    · left; simp [h]
    · right; exact List.mem_filterMap.2 ⟨_, h, rfl⟩
  obtain ⟨ip, h1⟩ := mem_handedTo.1 h1
  have h2 : i ∈ acceptedOf ip (queueTrace log) := by
    rw [hi.fifo ip]
    exact List.mem_append_left _ (List.mem_filterMap.2 ⟨_, h1, by simp⟩)
  obtain ⟨e, he, hx⟩ := List.mem_filterMap.1 h2
  cases e <;> simp at hx
  obtain ⟨rfl, rfl⟩ := hx
  obtain ⟨e', he', hx'⟩ := List.mem_filterMap.1 he
  cases e' <;> simp at hx'
  subst hx'
  intro h0
  have := List.countP_eq_zero.1 h0 _ he'
  simp at this

/-- So was a job in a queue. -/
theorem waiting_accepted {n ql : Nat} {q : Queue} {log : List SEvent} (hi : QInv n ql q (queueTrace log)) {i : Nat} (h : i ∈ waitingJobs q) :
    accN i log ≠ 0 := by
  obtain ⟨⟨ip, jobs⟩, he, hj⟩ := List.mem_flatMap.1 h
  have h2 : i ∈ acceptedOf ip (queueTrace log) := by
    rw [hi.fifo ip]
    refine List.mem_append_right _ ?_
    rw [waitingOf, AMap.get_of_mem (by rw [hi.inv.keys]; exact hi.inv.nd) he]
    exact hj
  obtain ⟨e, hev, hx⟩ := List.mem_filterMap.1 h2
  cases e <;> simp at hx
  obtain ⟨rfl, rfl⟩ := hx
  obtain ⟨e', he', hx'⟩ := List.mem_filterMap.1 hev
  cases e' <;> simp at hx'
  subst hx'
  intro h0
  have := List.countP_eq_zero.1 h0 _ he'
  simp at this

theorem untold_new (lib : PowLib) (p : Profile) (n ql now : Nat) (steps : List SStep) :
    Untold (sysRun lib p (Sys.new n ql now) steps).1.queue := by
  obtain ⟨qs, h1, -⟩ := queue_run lib p (Sys.new n ql now) steps
  have := untold_run p qs (qinv_init n ql) (fun _ => by simp [Queue.new])
  rw [show Queue.new n ql = (Sys.new n ql now).queue from rfl, h1] at this
  exact this

/-! ### When nothing goes on any more -/

theorem setCall_ne {s : Sys} {i : Nat} {c : Call} (hc : s.calls[i]? = some c) (w : CacheWorld) (q : Queue) (c' : Call) (hne : c' ≠ c) :
    ({ s with cache := w, queue := q } : Sys).setCall i c' ≠ s := by
  intro e
  have : (({ s with cache := w, queue := q } : Sys).setCall i c').calls[i]? = some c := by rw [e]; exact hc
  simp [Sys.setCall, List.getElem?_set, lt_of_some hc] at this
  exact hne this

theorem pc_ne {c c' : Call} (h : c'.pc ≠ c.pc) : c' ≠ c := fun e => h (by rw [e])

/-- If the process is still there, no live call waits for the cache, and nothing else goes on by itself, a live call is over, waits for
the master, or polls for a job waiting in its client's queue. -/
theorem quiescent_core {lib : PowLib} {p : Profile} {n ql : Nat} {s : Sys} {log : List SEvent}
    (hq : ∀ st, goesOn st = true → (∀ j, st ≠ .cache j) → (sysStep lib p s st).1 = s) (hnab : ¬ s.queue.status = .aborted)
    (A : ∀ (j : Nat) (d : Call), s.calls[j]? = some d → d.live = true → ∀ m k, d.pc ≠ .awaitCache m k)
    (hcalls : ∀ (i : Nat) (c : Call), s.calls[i]? = some c → CallInv lib log i c) (hui : UInv lib s log) (hji : JInv lib s log)
    (hverify : ∀ i a v r, .cache (some (i, a)) (.verify v) r ∈ log → ∃ b, r = .verdict b)
    (hretrive : ∀ i a v r, .cache (some (i, a)) (.retrivePow v) r ∈ log → ∃ o, r = .config o)
    (hr : RInv s) (hv : VInv s) (hut : Untold s.queue) (qi : QInv n ql s.queue (queueTrace log))
    (i : Nat) (c : Call) (hi : s.calls[i]? = some c) (hl : c.live = true) :
    c.pc = .done ∨ c.pc = .awaitMaster ∨ ((∃ cfg, c.pc = .polling cfg) ∧ s.queue.status = .running ∧ i ∈ waitingJobs s.queue) := by
  by_cases hcl : s.queue.closed = true
  · exact .inl (hji.fin hcl i c hi hl)
  have hcl : s.queue.closed = false := by simpa using hcl
  have hlr : s.queue.listening = true → s.queue.status = .running := by
    intro h
    simp only [Queue.listening, Bool.or_eq_true, decide_eq_true_eq] at h
    rcases h with h | h
    · exact h
    · rcases (hut hcl).2 with e | e
      · exact e
      · rw [h] at e; cases e
  /- no answer is left unread -/
  have B : ∀ (j : Nat) (d : Call), s.calls[j]? = some d → d.live = true → ∀ r k, d.pc ≠ .replied r k := by
    intro j d hd hlive r k hp
    have := hq (.resume j) rfl (by simp)
    unfold sysStep at this
    rw [if_neg hnab] at this
    simp only [hd, hlive, if_true] at this
    obtain ⟨-, hci⟩ := hcalls j d hd
    rw [hp] at hci
    obtain ⟨-, m, hpend, hev⟩ := hci
    unfold Sys.onResume at this
    rw [hp] at this
    have hover : ∀ ev : List SEvent, (s.setCall j d.over, ev).1 ≠ s := fun ev => setCall_ne hd s.cache s.queue _ (pc_ne (by simp [hp, Call.over]))
    cases k with
    | storePow cfg => exact hover [] this
    | storeResult t d => exact hover [] this
    | check =>
      obtain ⟨msg, ha, rfl⟩ := hpend
      obtain ⟨b, rfl⟩ := hverify _ _ _ _ hev
      exact hover [] this
    | retrieve =>
      obtain ⟨work, ip, ha, rfl⟩ := hpend
      obtain ⟨o, rfl⟩ := hretrive _ _ _ _ hev
      rw [ha] at this
      simp only at this
      unfold Sys.onRetrieved at this
      split at this
      · exact hover [] this
      · split at this
        · exact hover [] this
        · simp only at this
          split at this
          · exact setCall_ne hd s.cache _ _ (pc_ne (by simp [hp])) this
          · exact hover [] this
  have C : ∀ (j : Nat) (d : Call), s.calls[j]? = some d → d.live = true → ∀ cfg a, d.pc ≠ .answered cfg a := by
    intro j d hd hlive cfg a hp
    have := hq (.resume j) rfl (by simp)
    unfold sysStep at this
    rw [if_neg hnab] at this
    simp only [hd, hlive, if_true] at this
    unfold Sys.onResume at this
    rw [hp] at this
    cases a with
    | accepted => exact setCall_ne hd s.cache s.queue _ (pc_ne (by simp [hp])) this
    | refused => exact setCall_ne hd s.cache s.queue _ (pc_ne (by simp [hp, Call.over])) this
    | lost => exact setCall_ne hd s.cache s.queue _ (pc_ne (by simp [hp, Call.over])) this
  /- the manager has nothing to do -/
  have D : s.queue.status = .running → s.queue.mailbox = [] := by
    intro hrun
    have := hq (.queue .manage) rfl (by simp)
    unfold sysStep at this
    rw [if_neg hnab] at this
    simp only [Sys.mayStep, if_true] at this
    have e : (qStep p s.queue .manage).1 = s.queue := congrArg Sys.queue this
    unfold qStep at e
    rw [if_neg hnab] at e
    simp only [Queue.manage, hrun, if_true] at e
    cases hm : s.queue.mailbox with
    | nil => rfl
    | cons m rest =>
      exfalso
      have hlen : ∀ (q : Queue), q.mailbox = rest → q ≠ s.queue := by
        intro q h1 h2
        have := congrArg (fun q : Queue => q.mailbox.length) h2
        simp [h1, hm] at this
      rw [hm] at e
      cases m with
      | stop =>
        simp only at e
        split at e <;> exact hlen _ rfl e
      | dispatch name =>
        simp only at e
        split at e <;> exact hlen _ rfl e
      | schedule ip job =>
        simp only at e
        split at e <;> exact hlen _ rfl e
  have E : ∀ (j : Nat) (d : Call), s.calls[j]? = some d → ∀ cfg, d.pc ≠ .awaitAdd cfg := by
    intro j d hd cfg hp
    have hacc := (hui.calls j d hd).had
    rw [hp] at hacc
    have h0 : accN j log = 0 := hacc.1
    rcases hv.wait j d cfg hd hp with ⟨h1, ⟨ip, h2⟩ | h2⟩ | ⟨w, r, h1, h2, h3⟩
    · rw [D (hlr h1)] at h2; cases h2
    · exact waiting_accepted qi h2 h0
    · exact worker_accepted qi h1 h2 h3 h0
  /- a call that polls has found nothing, and its job is not dropped -/
  have F : ∀ (j : Nat) (d : Call), s.calls[j]? = some d → d.live = true → ∀ cfg, d.pc = .polling cfg →
      ∃ job ch, d.job = some (job, ch) ∧ ch.rxAlive = true ∧ ch.reading = .none ∧ ch.buf = [] ∧ ∀ b, ch.pc ≠ .dropped b := by
    intro j d hd hlive cfg hp
    have hs := (hcalls j d hd).2
    rw [hp] at hs
    obtain ⟨⟨work, ip, ch, -, -, -, hj, -⟩, -⟩ := hs
    generalize ({ pow := lib, work := work.toProof, string := work.string, difficultyFactor := cfg.difficultyFactor } : QueuedWork) = job at hj
    obtain ⟨h1, h2⟩ := (hr.rx j d hd job ch hj).1 hlive (by rw [hp]; rfl)
    have := hq (.poll j (fun _ => 0)) rfl (by simp)
    unfold sysStep at this
    rw [if_neg hnab] at this
    simp only [hd, hlive, if_true] at this
    unfold Sys.onPoll at this
    rw [hp, hj] at this
    simp only at this
    have hread : ch.poll.reading = .none := by
      cases hx : ch.poll.reading with
      | none => rfl
      | disconnected =>
        rw [hx] at this
        exact absurd this (setCall_ne hd s.cache s.queue _ (pc_ne (by simp [hp, Call.over])))
      | verdict b =>
        rw [hx] at this
        cases b with
        | false => exact absurd this (setCall_ne hd s.cache s.queue _ (pc_ne (by simp [hp, Call.over])))
        | true => exact absurd this (setCall_ne hd s.cache s.queue _ (pc_ne (by simp [hp])))
    refine ⟨job, ch, hj, h1, h2, ?_, ?_⟩
    · cases hb : ch.buf with
      | nil => rfl
      | cons b r => simp [VerdictChannel.poll, h1, h2, hb] at hread
    · intro b hb
      unfold VerdictChannel.poll at hread
      rw [if_pos ⟨h2, h1⟩] at hread
      split at hread
      · simp at hread
      · rw [hb] at hread; simp at hread
  /- no worker runs anything -/
  have G : ∀ (w : Nat) (r : Worker), s.queue.inner.runners[w]? = some r → r.running = none := by
    intro w r hw
    cases hrn : r.running with
    | none => rfl
    | some j =>
      exfalso
      have halive := qi.act w r hw (by simp [hrn])
      obtain ⟨d, hd, job, ch, hj, hnd⟩ := hr.held j (.inr ⟨w, r, hw, halive, .inl hrn⟩)
      by_cases hfin : ch.pc = .finished
      · have := hq (.queue (.finish w)) rfl (by simp)
        unfold sysStep at this
        rw [if_neg hnab] at this
        have hmay : s.mayStep (.finish w) = true := by
          obtain ⟨inbox, running, status⟩ := r
          simp only at hrn
          subst hrn
          obtain ⟨api, pc, live, jb⟩ := d
          simp only at hj
          subst hj
          simp [Sys.mayStep, hw, hd, hfin]
        simp only [hmay, if_true] at this
        have e : (qStep p s.queue (.finish w)).1 = s.queue := congrArg Sys.queue this
        unfold qStep at e
        rw [if_neg hnab] at e
        simp only [Queue.finish, hw, hrn] at e
        split at e
        · have := congrArg (fun q : Queue => q.mailbox.length) e
          simp at this
        · have := congrArg (fun q : Queue => q.inner.runners[w]?) e
          simp only [Queue.setWorker, List.getElem?_set, lt_of_some hw, hw] at this
          simp at this
          have := congrArg Worker.running this
          simp [hrn] at this
      · have := hq (.work w) rfl (by simp)
        unfold sysStep at this
        rw [if_neg hnab] at this
        simp only at this
        have e1 : s.onWork w = s.setCall j { d with job := some (job, (ch.workerStep job).getD ch) } := by
          obtain ⟨inbox, running, status⟩ := r
          simp only at hrn
          subst hrn
          simp [Sys.onWork, hw, hd, hj, hfin]
        rw [e1] at this
        have e2 : (ch.workerStep job).getD ch = ch := by
          apply Classical.byContradiction
          intro hne
          refine setCall_ne hd s.cache s.queue _ ?_ this
          intro e
          have := congrArg Call.job e
          rw [hj] at this
          simp at this
          exact hne this
        /- the worker is blocked: the channel is full, and its reader is alive -/
        have hblocked : ch.rxAlive = true ∧ ¬ ch.buf.length < VerdictChannel.capacity := by
          cases hpc : ch.pc with
          | start =>
            exfalso
            have := congrArg VerdictChannel.pc e2
            unfold VerdictChannel.workerStep at this
            rw [hpc] at this
            simp only at this
            split at this <;> simp at this
          | checkValid =>
            exfalso
            have := congrArg VerdictChannel.pc e2
            unfold VerdictChannel.workerStep at this
            rw [hpc] at this
            simp only at this
            split at this <;> simp at this
          | finished => exact absurd hpc hfin
          | dropped b => exact absurd hpc (hnd b)
          | sendInsufficient =>
            have := congrArg VerdictChannel.pc e2
            unfold VerdictChannel.workerStep at this
            rw [hpc] at this
            simp only [VerdictChannel.send] at this
            split at this
            · simp at this
            · rename_i hx
              split at this
              · simp at this
              · rename_i hy; exact ⟨by simpa using hx, hy⟩
          | sendInvalid =>
            have := congrArg VerdictChannel.pc e2
            unfold VerdictChannel.workerStep at this
            rw [hpc] at this
            simp only [VerdictChannel.send] at this
            split at this
            · simp at this
            · rename_i hx
              split at this
              · simp at this
              · rename_i hy; exact ⟨by simpa using hx, hy⟩
          | sendTrue =>
            have := congrArg VerdictChannel.pc e2
            unfold VerdictChannel.workerStep at this
            rw [hpc] at this
            simp only [VerdictChannel.send] at this
            split at this
            · simp at this
            · rename_i hx
              split at this
              · simp at this
              · rename_i hy; exact ⟨by simpa using hx, hy⟩
        have hrx := (hr.rx j d hd job ch hj).2.1
        have hlive : d.live = true := by
          cases hx : d.live with
          | true => rfl
          | false => rw [hrx (.inl hx)] at hblocked; simp at hblocked
        cases hpc : d.pc with
        | awaitMaster => exact (hr.rx j d hd job ch hj).2.2 hpc
        | awaitCache m k => exact A j d hd hlive m k hpc
        | replied r k => exact B j d hd hlive r k hpc
        | awaitAdd cfg => exact E j d hd cfg hpc
        | answered cfg a => exact C j d hd hlive cfg a hpc
        | polling cfg =>
          obtain ⟨job', ch', e, -, -, hb, -⟩ := F j d hd hlive cfg hpc
          rw [hj] at e; cases e
          have := hblocked.2
          rw [hb] at this
          simp [VerdictChannel.capacity] at this
        | done => rw [hrx (.inr hpc)] at hblocked; simp at hblocked
  have H : ∀ (w : Nat) (r : Worker), s.queue.inner.runners[w]? = some r → r.status = .alive → r.inbox = [] := by
    intro w r hw hal
    have := hq (.queue (.take w)) rfl (by simp)
    unfold sysStep at this
    rw [if_neg hnab] at this
    simp only [Sys.mayStep, if_true] at this
    have e : (qStep p s.queue (.take w)).1 = s.queue := congrArg Sys.queue this
    unfold qStep at e
    rw [if_neg hnab] at e
    simp only [Queue.take, hw, hal, G w r hw, and_self, if_true] at e
    cases hin : r.inbox with
    | nil => rfl
    | cons m rest =>
      exfalso
      rw [hin] at e
      have hne : ∀ x : Worker, x.inbox = rest → s.queue.setWorker w x ≠ s.queue := by
        intro x hx e
        have := congrArg (fun q : Queue => q.inner.runners[w]?) e
        simp only [Queue.setWorker, List.getElem?_set, lt_of_some hw, hw] at this
        simp at this
        have := congrArg (fun r : Worker => r.inbox.length) this
        simp [hx, hin] at this
      cases m with
      | stop => exact hne _ rfl e
      | prove j => exact hne _ rfl e
  cases hpc : c.pc with
  | awaitMaster => exact .inr (.inl rfl)
  | done => exact .inl rfl
  | awaitCache m k => exact absurd hpc (A i c hi hl m k)
  | replied r k => exact absurd hpc (B i c hi hl r k)
  | awaitAdd cfg => exact absurd hpc (E i c hi cfg)
  | answered cfg a => exact absurd hpc (C i c hi hl cfg a)
  | polling cfg =>
    right; right
    obtain ⟨job, ch, hj, -, -, -, hnd⟩ := F i c hi hl cfg hpc
    rcases hv.job i c job ch hi hj with (⟨h1, ⟨ip, h⟩ | h⟩ | ⟨w, r, h1, h2, h3⟩) | ⟨b, h⟩
    · rw [D (hlr h1)] at h; cases h
    · exact ⟨⟨cfg, rfl⟩, hlr h1, h⟩
    · rcases h3 with h3 | h3
      · rw [G w r h1] at h3; cases h3
      · rw [H w r h1 h2] at h3; cases h3
    · exact absurd h (hnd b)

/-- In a quiescent state, crashes or not, if the process is still there, a live call is over, waits for the master, or polls for a job
waiting in its client's queue. -/
theorem quiescent_any (lib : PowLib) (p : Profile) (n ql now : Nat) (steps : List SStep)
    (hq : Quiescent lib p (sysRun lib p (Sys.new n ql now) steps).1) (hnab : ¬ (sysRun lib p (Sys.new n ql now) steps).1.queue.status = .aborted)
    (i : Nat) (c : Call) (hi : (sysRun lib p (Sys.new n ql now) steps).1.calls[i]? = some c) (hl : c.live = true) :
    c.pc = .done ∨ c.pc = .awaitMaster ∨ ((∃ cfg, c.pc = .polling cfg) ∧ (sysRun lib p (Sys.new n ql now) steps).1.queue.status = .running ∧
      i ∈ waitingJobs (sysRun lib p (Sys.new n ql now) steps).1.queue) := by
  have hf := facts lib p n ql now steps
  have hr := rinv_new lib p n ql now steps
  have hv := vinv_new lib p n ql now steps
  have hut := untold_new lib p n ql now steps
  obtain ⟨qi, qli, -⟩ := sys_qinv lib p n ql now steps
  generalize (sysRun lib p (Sys.new n ql now) steps).1 = s at *
  generalize (sysRun lib p (Sys.new n ql now) steps).2 = log at *
  refine quiescent_core (fun st h _ => hq st h) hnab ?_ hf.si.calls hf.ui hf.ji ?_ ?_ hr hv hut qi i c hi hl
  · intro j d hd _ m k hp
    have := hq (.cache j) rfl
    unfold sysStep at this
    rw [if_neg hnab] at this
    simp only [hd, hp] at this
    exact setCall_ne hd (s.cache.handle m).1 s.queue _ (pc_ne (by simp [hp])) this
  · intro i a v r hev
    obtain ⟨pre, post, hs⟩ := List.append_of_mem hev
    have hw := hf.si.why pre _ post hs
    cases a with
    | get id => obtain ⟨-, -, cfg, res, -, -, -, -, e⟩ := hw; cases e
    | verify work ip =>
      obtain ⟨-, ⟨e, -⟩ | ⟨-, t, cfg, -, -, -, -, e⟩⟩ := hw <;> cases e
    | validate msg => exact ⟨_, hw.2.2⟩
  · intro i a v r hev
    obtain ⟨pre, post, hs⟩ := List.append_of_mem hev
    have hw := hf.si.why pre _ post hs
    cases a with
    | get id => obtain ⟨-, -, cfg, res, -, -, -, -, e⟩ := hw; cases e
    | verify work ip =>
      obtain ⟨-, ⟨-, e⟩ | ⟨-, t, cfg, -, -, -, -, e⟩⟩ := hw
      · exact ⟨_, e⟩
      · cases e
    | validate msg => obtain ⟨-, e, -⟩ := hw; cases e

/-- Without a crash the process is still there. -/
theorem quiescent_calls (lib : PowLib) (p : Profile) (n ql now : Nat) (steps : List SStep)
    (hq : Quiescent lib p (sysRun lib p (Sys.new n ql now) steps).1) (hc : ¬ SomeCrash (sysRun lib p (Sys.new n ql now) steps).2)
    (i : Nat) (c : Call) (hi : (sysRun lib p (Sys.new n ql now) steps).1.calls[i]? = some c) (hl : c.live = true) :
    c.pc = .done ∨ c.pc = .awaitMaster ∨ i ∈ waitingJobs (sysRun lib p (Sys.new n ql now) steps).1.queue := by
  obtain ⟨-, -, qh⟩ := sys_qinv lib p n ql now steps
  rcases quiescent_any lib p n ql now steps hq (qh hc).ok.2 i c hi hl with h | h | h
  · exact .inl h
  · exact .inr (.inl h)
  · exact .inr (.inr h.2.2)

end MCap
