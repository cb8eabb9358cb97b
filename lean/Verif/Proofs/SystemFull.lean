import Verif.Proofs.SystemHonest

namespace MCap
open Spec

theorem eraseDups_nodup (l : List String) : l.eraseDups.Nodup := by
  suffices h : ∀ (k : Nat) (l : List String), l.length ≤ k → l.eraseDups.Nodup from h _ l (Nat.le_refl _)
  intro k
  induction k with
  | zero => intro l hl; rw [List.length_eq_zero_iff.1 (Nat.le_zero.1 hl)]; simp
  | succ k ih =>
    intro l hl
    cases l with
    | nil => simp
    | cons a l =>
      rw [List.eraseDups_cons, List.nodup_cons]
      refine ⟨by simp [List.mem_eraseDups], ih _ ?_⟩
      have := List.length_filter_le (fun b => !b == a) l
      simp only [List.length_cons] at hl
      omega

/-! ### Calls are numbered in the order they are made -/

theorem call_fresh (lib : PowLib) (p : Profile) (s : Sys) (steps : List SStep) (i : Nat) (a : Api)
    (h : .call i a ∈ (sysRun lib p s steps).2) : s.calls.length ≤ i := by
  induction steps generalizing s with
  | nil => simp [sysRun] at h
  | cons st r ih =>
    simp only [sysRun, List.mem_append] at h
    have hm := sysStep_move lib p s st
    have hlen : s.calls.length ≤ (sysStep lib p s st).1.calls.length ∧
        (.call i a ∈ (sysStep lib p s st).2 → s.calls.length ≤ i) := by
      generalize sysStep lib p s st = x at hm
      obtain ⟨s', ev⟩ := x
      cases hm with
      | start a' hq => 
        refine ⟨by simp, ?_⟩
        intro h'
        simp at h'
        omega
      | «local» j c c' ev hc m =>
        refine ⟨by simp [Sys.setCall], fun h' => absurd h' ((local_dinv m).2.2.2 i a)⟩
      | cache j c m k hc h2 => refine ⟨by simp [Sys.setCall], by simp⟩
      | submit j c work ip cfg hc h1 h2 hk hl hq hcl => refine ⟨by simp [Sys.setCall], by simp⟩
      | _ => refine ⟨by simp, by simp⟩
    rcases h with h | h
    · exact hlen.2 h
    · exact Nat.le_trans hlen.1 (ih _ h)

/-- A job is accepted only after its call was made, with its address. -/
theorem accepted_after_call (lib : PowLib) (p : Profile) (n ql now : Nat) (steps : List SStep) :
    ∀ pre post ip j, (sysRun lib p (Sys.new n ql now) steps).2 = pre ++ .queue (.accepted ip j) :: post →
      ∃ work, .call j (.verify work ip) ∈ pre := by
  have h : ∀ pre post e, (sysRun lib p (Sys.new n ql now) steps).2 = pre ++ e :: post →
      ∀ ip j, e = .queue (.accepted ip j) → ∃ work, .call j (.verify work ip) ∈ pre := by
    refine (run_induct lib p n ql now (fun s log => AddrInv s log ∧ ∀ pre post e, log = pre ++ e :: post →
      ∀ ip j, e = .queue (.accepted ip j) → ∃ work, .call j (.verify work ip) ∈ pre) ⟨⟨by simp [Sys.new, Queue.new], by simp⟩, by simp⟩ ?_ steps).2
    rintro d s' ev ⟨h0, h⟩ m
    have h1 := addr_move (sys_qinv lib p n ql now d).1 (fun i c hc => ((facts lib p n ql now d).si.calls i c hc).1) h0 m
    refine ⟨h1, ?_⟩
    intro pre post e hl ip j he
    subst he
    rcases append_split hl with ⟨c, h2, -⟩ | ⟨c, h2, h3⟩
    · exact h pre c _ h2 ip j rfl
    · obtain ⟨work, hw⟩ := h1.acc ip j (.inl (by rw [h3]; simp))
      refine ⟨work, ?_⟩
      rw [h2]
      rcases List.mem_append.1 hw with hw' | hw'
      · exact List.mem_append_left _ hw'
      · exfalso
        generalize (sysRun lib p (Sys.new n ql now) d).2 = log at *
        have hacc : SEvent.queue (.accepted ip j) ∈ ev := by rw [h3]; simp
        cases m with
        | start a' hq => simp at hacc
        | «local» i c c' ev hc m => exact (local_dinv m).2.2.2 _ _ hw'
        | _ => simp at hw'
  intro pre post ip j hl
  exact h pre post _ hl ip j rfl

/-! ### A caller takes up one place in the queue -/

/-- One address asks for a challenge and hands in a wrong proof for it; call `a` is its `get_pow`. -/
def takePlace (lib : PowLib) (a : Nat) (site ip : String) : List SStep :=
  [.call (.get site), .master a (.reply (.ok (some { duration := 30, difficultyFactor := 50 }))) (fun _ => 0), .cache a, .resume a,
   .call (.verify { string := (PoWConfig.new 50 lib.salt (fun _ => 0)).string, result := "", nonce := 0, key := site } ip),
   .cache (a + 1), .resume (a + 1), .queue .manage]

theorem takePlace_run (lib : PowLib) (p : Profile) (s : Sys) (site ip : String) (h1 : s.queue.status = .running) (h2 : s.queue.closed = false)
    (h3 : s.queue.mailbox = []) :
    let q := { s.queue with mailbox := [.schedule ip (s.calls.length + 1)] }
    let x := sysRun lib p s (takePlace lib s.calls.length site ip)
    x.1.queue = (q.manage p).1 ∧ x.1.calls.length = s.calls.length + 2 ∧ queueTrace x.2 = (q.manage p).2 := by
  obtain ⟨cache, queue, calls⟩ := s
  simp only at h1 h2 h3
  simp [takePlace, sysRun, sysStep, h1, h2, h3, Sys.onMaster, Sys.setCall, Call.start, CacheWorld.handle, HashCache.savePowConfig,
    HashCache.retrivePowConfig, HashCache.removePowConfig, AMap.get_insert_self, Sys.onResume, Sys.onRetrieved, Queue.listening,
    qStep, Sys.returns, Sys.mayStep]
  exact queueTrace_map _

/-- The same for one address after the other. -/
def takePlaces (lib : PowLib) (site : String) : Nat → List String → List SStep
  | _, [] => []
  | a, ip :: r => takePlace lib a site ip ++ takePlaces lib site (a + 2) r

theorem takePlaces_run (lib : PowLib) (p : Profile) (n ql now : Nat) (site : String) (ips : List String) (steps : List SStep)
    (hr : (sysRun lib p (Sys.new n ql now) steps).1.queue.status = .running)
    (hcl : (sysRun lib p (Sys.new n ql now) steps).1.queue.closed = false)
    (hmb : (sysRun lib p (Sys.new n ql now) steps).1.queue.mailbox = [])
    (hnc : ¬ SomeCrash (sysRun lib p (Sys.new n ql now) steps).2)
    (hnd : ips.Nodup) (hdis : ∀ ip ∈ ips, ip ∉ acceptedIps (queueTrace (sysRun lib p (Sys.new n ql now) steps).2))
    (hle : distinctClients (queueTrace (sysRun lib p (Sys.new n ql now) steps).2) + ips.length ≤ ql) :
    let x := sysRun lib p (Sys.new n ql now) (steps ++ takePlaces lib site (sysRun lib p (Sys.new n ql now) steps).1.calls.length ips)
    distinctClients (queueTrace x.2) = distinctClients (queueTrace (sysRun lib p (Sys.new n ql now) steps).2) + ips.length ∧
      ¬ SomeCrash x.2 ∧ x.1.queue.status = .running := by
  induction ips generalizing steps with
  | nil => simp only [takePlaces, List.append_nil, List.length_nil, Nat.add_zero, true_and]; exact ⟨hnc, hr⟩
  | cons ip r ih =>
    obtain ⟨hq, hl, hh⟩ := sys_qinv lib p n ql now steps
    obtain ⟨e1, e2, e3⟩ := takePlace_run lib p (sysRun lib p (Sys.new n ql now) steps).1 site ip hr hcl hmb
    generalize hs : (sysRun lib p (Sys.new n ql now) steps).1 = s at *
    generalize hg : (sysRun lib p (Sys.new n ql now) steps).2 = log at *
    obtain ⟨im, ev, hd⟩ := schedule_ret p _ hq.inv (allAlive (hh hnc) hl hr) ip (s.calls.length + 1)
    have hlt : distinctClients (queueTrace log) < ql := by simp only [List.length_cons] at hle; omega
    have hk : s.queue.inner.queues.length ≠ s.queue.inner.queueLength := by
      rw [keys_length _ hq.inv, hq.qlen, ← distinct_eq hq]; omega
    have hman : Queue.manage p { s.queue with mailbox := [.schedule ip (s.calls.length + 1)] } =
        ({ s.queue with mailbox := [], inner := im }, ev) := by
      simp [Queue.manage, hr, hd]
    rcases schedule_cases p _ im hq.inv ip _ ev hd with ⟨h1, -⟩ | ⟨-, ev', rfl, hdp⟩
    · exact absurd h1 hk
    simp only [hman] at e1 e3
    have hev : ∀ e ∈ ev', (∀ w j, e ≠ .crashedOn w j) ∧ ∀ ip j, e ≠ .accepted ip j := by
      intro e he
      rcases hdp.only e he with ⟨_, rfl⟩ | ⟨_, _, _, rfl⟩ <;> simp
    have hacc' : acceptedIps ev' = [] := by
      rw [acceptedIps, List.filterMap_eq_nil_iff]
      intro e he
      have h2 := (hev e he).2
      cases e with
      | accepted ip j => exact absurd rfl (h2 ip j)
      | _ => rfl
    have happ : sysRun lib p (Sys.new n ql now) (steps ++ takePlace lib s.calls.length site ip) =
        ((sysRun lib p s (takePlace lib s.calls.length site ip)).1, log ++ (sysRun lib p s (takePlace lib s.calls.length site ip)).2) := by
      rw [sysRun_append, hs, hg]
    generalize sysRun lib p s (takePlace lib s.calls.length site ip) = x at e1 e2 e3 happ
    obtain ⟨s2, ev2⟩ := x
    simp only at e1 e2 e3 happ
    have hips : acceptedIps (queueTrace (log ++ ev2)) = acceptedIps (queueTrace log) ++ [ip] := by
      rw [queueTrace_append, acceptedIps_append, e3, show QEvent.accepted ip (s.calls.length + 1) :: ev' = [QEvent.accepted ip (s.calls.length + 1)] ++ ev' from rfl,
        acceptedIps_append, hacc']
      rfl
    have hdc : distinctClients (queueTrace (log ++ ev2)) = distinctClients (queueTrace log) + 1 := by
      have hn := hdis ip (by simp)
      have h0 : List.removeAll [ip] (acceptedIps (queueTrace log)) = [ip] := by
        simp [List.removeAll, hn]
      rw [distinctClients, hips, List.eraseDups_append, List.length_append, h0]
      rfl
    have := ih (steps ++ takePlace lib s.calls.length site ip) (by rw [happ]; simp only [e1]; exact hr) (by rw [happ]; simp only [e1]; exact hcl)
      (by rw [happ]; simp only [e1])
      (by
        rw [happ]
        rintro ⟨w, j, h⟩
        rcases List.mem_append.1 h with h | h
        · exact hnc ⟨w, j, h⟩
        · have h := mem_queueTrace.2 h
          rw [e3] at h
          rcases List.mem_cons.1 h with h | h
          · cases h
          · exact (hev _ h).1 w j rfl)
      (List.nodup_cons.1 hnd).2
      (by
        rw [happ]; simp only [hips]
        intro x hx h
        rcases List.mem_append.1 h with h | h
        · exact hdis x (by simp [hx]) h
        · rw [List.mem_singleton.1 h] at hx
          exact (List.nodup_cons.1 hnd).1 hx)
      (by rw [happ]; simp only [hdc]; simp only [List.length_cons] at hle; omega)
    rw [happ] at this
    simp only [e2, hdc] at this
    have ha : steps ++ takePlaces lib site s.calls.length (ip :: r) =
        steps ++ takePlace lib s.calls.length site ip ++ takePlaces lib site (s.calls.length + 2) r := by
      rw [takePlaces, List.append_assoc]
    simp only [ha, List.length_cons]
    refine ⟨?_, this.2⟩
    rw [this.1]; omega

end MCap
