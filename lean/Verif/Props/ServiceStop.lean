import Verif.Proofs.ServiceStop
import Verif.Props.Service

/-!
# C124: why a visitor of a site gets no challenge
-/

namespace MCap
open Spec

/-- C124. When `get_pow(id)` returns no challenge, the site was unknown when the master handled the request; or the counter the site then had
handled a `Stop` before the visitor reached it, and before that it was seen without visitors, or the master was told to remove the site which
then had it. (Of a counter which was given usable captchas only and has not counted some 2³² visitors, and if nobody but the master sends
`Stop` to counters.) -/
theorem C124_none_explained (lib : PowLib) (p : Profile) (n ql gc now : Nat) (steps : List VStep) (hs : OnlyMasterStops steps) (i : Nat)
    (id : SiteId) (pre post : List VEvent) (hlog : vLogOf lib p n ql gc now steps = pre ++ .api (.ret i (.get id) (.get (.ok none))) :: post)
    (hsound : ∀ a, .asked i id (some a) ∈ pre → ∃ n, Sound a n pre) :
    (∃ x y, pre = x ++ .asked i id none :: y ∧ regAfter (fun _ => none) 0 (masterMsgs x) id = none) ∨
    ∃ a t x y z, pre = x ++ .asked i id (some a) :: (y ++ .counter (some i) a t .addVisitor .mailboxError :: z) ∧
      regAfter (fun _ => none) 0 (masterMsgs x) id = some a ∧
      ∃ who t' u v, x ++ .asked i id (some a) :: y = u ++ .counter who a t' .stop .done :: v ∧ (SeenIdle u a ∨ RemovedIn u a) := by
  rcases C95_no_challenge lib p n ql gc now steps i id pre post hlog with h | ⟨a, t, h1, h2⟩
  · exact .inl h
  right
  obtain ⟨q, z, rfl⟩ := List.append_of_mem h2
  have hl := link_run lib p n ql gc now steps
  have hlog' : vLogOf lib p n ql gc now steps =
      q ++ .counter (some i) a t .addVisitor .mailboxError :: (z ++ .api (.ret i (.get id) (.get (.ok none))) :: post) := by
    rw [hlog]; simp
  obtain ⟨-, id', x, y, rfl, -, hreg⟩ := C95_right_counter lib p n ql gc now steps i a t _ _ _ _ hlog'
  have hid : id' = id := by
    have hone := hl.once i
    have : askedFor i (vLogOf lib p n ql gc now steps) ≤ 1 := by
      unfold vLogOf
      split at hone <;> omega
    rw [hlog] at this
    generalize hq : x ++ VEvent.asked i id' (some a) :: y ++ VEvent.counter (some i) a t .addVisitor .mailboxError :: z = pre at *
    have hm : .asked i id' (some a) ∈ pre := by rw [← hq]; simp
    obtain ⟨b1, b2, hb⟩ := List.append_of_mem hm
    subst hb
    rcases List.mem_append.1 h1 with h | h
    · exfalso
      obtain ⟨c1, c2, rfl⟩ := List.append_of_mem h
      simp [askedFor] at this
      omega
    · rcases List.mem_cons.1 h with h | h
      · cases h; rfl
      · exfalso
        obtain ⟨c1, c2, rfl⟩ := List.append_of_mem h
        simp [askedFor] at this
        omega
  subst hid
  refine ⟨a, t, x, y, z, by simp, hreg, ?_⟩
  have hd := (dacc_run lib p n ql gc now steps).why _ _ _ hlog'
  have hlt : a < (registrations (x ++ VEvent.asked i id' (some a) :: y)).length := by
    rw [registrations_append, List.length_append]
    exact Nat.lt_of_lt_of_le (known_registered hreg) (Nat.le_add_right _ _)
  obtain ⟨c, hc⟩ := hsound a h1
  obtain ⟨who, t', hm⟩ := hd c (sound_left hc) hlt
  obtain ⟨u, v, huv⟩ := List.append_of_mem hm
  refine ⟨who, t', u, v, huv, ?_⟩
  exact (tacc_run lib p n ql gc now steps hs).why u (.counter who a t' .stop .done)
    (v ++ .counter (some i) a t .addVisitor .mailboxError :: (z ++ .api (.ret i (.get id') (.get (.ok none))) :: post))
    (by show vLogOf lib p n ql gc now steps = _; rw [hlog', huv]; simp)

/-- A visitor of a site has been forgotten when garbage collection looks at it; the next visitor is on their way to its counter when this is
stopped. -/
def exIdleStop : List VStep :=
  [.world (.req 0 (.addSite "site" exM)), .sys (.call (.get "site")), .ask 0, .world (.run 1), .hear 0 (fun _ => 0), .tick 30,
   .world (.fire 0 0), .sys (.call (.get "site")), .ask 1, .world (.run 0), .world (.run 1), .world (.run 0), .world (.run 1),
   .hear 1 (fun _ => 0)]

/-- The hypotheses in a concrete run, in which the second case occurs. -/
example : OnlyMasterStops exIdleStop ∧ ∃ pre post,
    vLogOf sysLib ⟨true⟩ 1 5 60 0 exIdleStop = pre ++ .api (.ret 1 (.get "site") (.get (.ok none))) :: post ∧
    (∀ a, .asked 1 "site" (some a) ∈ pre → ∃ n, Sound a n pre) ∧
    .counter none 0 30 .getCurrentVisitorCount (.count 0) ∈ pre ∧ .counter (some 1) 0 30 .addVisitor .mailboxError ∈ pre := by
  refine ⟨by intro t a; simp [exIdleStop], (vLogOf sysLib ⟨true⟩ 1 5 60 0 exIdleStop).take 12,
    (vLogOf sysLib ⟨true⟩ 1 5 60 0 exIdleStop).drop 13, by decide, ?_, by decide, by decide⟩
  intro a ha
  have h1 : (vLogOf sysLib ⟨true⟩ 1 5 60 0 exIdleStop).take 12 = ((vLogOf sysLib ⟨true⟩ 1 5 60 0 exIdleStop).take 12).filter
      (fun | .counter _ _ _ (.setInternalData _) _ => false | .asked _ _ (some b) => b == 0 | _ => true) := by decide
  have h2 : registrations ((vLogOf sysLib ⟨true⟩ 1 5 60 0 exIdleStop).take 12) = [("site", exM)] := by decide
  have h3 : (countedAt 0 ((vLogOf sysLib ⟨true⟩ 1 5 60 0 exIdleStop).take 12)).length = 1 := by decide
  generalize (vLogOf sysLib ⟨true⟩ 1 5 60 0 exIdleStop).take 12 = pre at *
  have ha0 : a = 0 := by rw [h1] at ha; simpa using (List.mem_filter.1 ha).2
  subst ha0
  refine ⟨0, ?_, by rw [h3]; decide⟩
  rintro m (⟨id, hm⟩ | ⟨who, t, hm⟩)
  · rw [h2] at hm
    simp only [List.getElem?_cons_zero, Option.some.injEq, Prod.mk.injEq] at hm
    obtain ⟨-, rfl⟩ := hm
    obtain ⟨k1, k2⟩ := startM_valid _ (startM_of_freshM _ exM_fresh)
    exact ⟨k1, by rw [k2]; exact Nat.le_refl 0⟩
  · rw [h1] at hm
    simp at hm

end MCap
