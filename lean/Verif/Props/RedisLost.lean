import Verif.Proofs.RedisLost
import Verif.Props.RedisService

/-!
# C118 and C119: on Redis, a MailboxError says that nothing was done, and each call sends each of its requests once
-/

namespace MCap
open Spec

/-! ## C118 On Redis, a MailboxError says that nothing was done -/

/-- A request that was turned away is not sent at all. -/
theorem refused_unasked {lib : PowLib} {p : Profile} {n ql now : Nat} {conns : List Nat} {steps : List ZStep} {q r : List ZEvent} {i a : Nat} {m : RMsg}
    {e : OEvent} (hlog : zLog lib p n ql now conns steps = (q ++ [.net (.actor (.refused a m))]) ++ .sys e :: r) (he : StopsO i e)
    (hq : ∀ id, .asked i id ∈ q → ∃ b m', .net (.actor (.sent b id m')) ∈ q ∧ ¬ SameKind m m') :
    ∀ id b m', .asked i id ∈ zLog lib p n ql now conns steps → .net (.actor (.sent b id m')) ∈ zLog lib p n ql now conns steps → ¬ SameKind m m' := by
  intro id b m' h1 h2
  have hno := no_ask_after hlog he id
  have hmem : .asked i id ∈ q := by
    rw [hlog] at h1
    simp at h1
    exact h1.resolve_right hno
  obtain ⟨b', m'', h3, h4⟩ := hq id hmem
  have : m' = m'' := zinv_one (zinv_run lib p n ql now conns steps) b b' id m' m'' h2
    (show _ ∈ zLog lib p n ql now conns steps by rw [hlog]; simp [h3])
  rw [this]; exact h4

/-- What holds of a request to the cache that failed for want of the cache. -/
theorem failed_lost {lib : PowLib} {p : Profile} {n ql now : Nat} {conns : List Nat} {steps : List ZStep} {pre post : List ZEvent} {i : Nat} {cm : CacheMsg}
    {e : CaptchaError} (hlog : zLog lib p n ql now conns steps = pre ++ post) (hm : .failed i cm e ∈ atCalls pre) (he : e = .mailboxError ∨ e = .recvError) :
    (e = .mailboxError ∧ TurnedAway pre i 0 cm.toRedis ∧ Undone (zLog lib p n ql now conns steps) i cm.toRedis) ∨
    ∃ q r id b, pre = q ++ r ∧ Died steps q i 0 cm.toRedis id b ∧ e = if b then .recvError else .mailboxError := by
  obtain ⟨q, r, rfl⟩ := List.append_of_mem (mem_atCalls.1 hm)
  have hl : zLog lib p n ql now conns steps = q ++ .sys (.failed i cm e) :: (r ++ post) := by rw [hlog]; simp
  rcases failed_at hl with ⟨id, ans, h1, h2⟩ | ⟨rfl, q', rfl, hq⟩ | ⟨id, b, h1, h2⟩
  · exfalso
    have : (∃ x, e = .redisError x) ∨ e = .mCaptchaRedisModuleError := by
      rcases zlog_answer hl h1 with ⟨-, rfl⟩ | ⟨r, t, -, ha⟩ | ⟨e', -, ha⟩
      · simp [RAnswer.toCache, Except.map] at h2
      · exact answer_error ha h2
      · exact answer_error ha h2
    rcases this with ⟨x, rfl⟩ | rfl <;> rcases he with he | he <;> cases he
  · exact .inl ⟨rfl, ⟨q', r, _, by simp, .inr ⟨cm, rfl, rfl⟩⟩, fun id b m' h1 h2 h3 => absurd h3 (refused_unasked hl rfl hq id b m' h1 h2)⟩
  · exact .inr ⟨q, _, id, b, rfl, h1, h2⟩

/-- The same for the master. -/
theorem master_lost {lib : PowLib} {p : Profile} {n ql now : Nat} {conns : List Nat} {steps : List ZStep} {pre post : List ZEvent} {i : Nat} {y : MasterAnswer}
    (hlog : zLog lib p n ql now conns steps = pre ++ post) (hm : .api (.master i y) ∈ atCalls pre) (hy : ∀ x, y ≠ .reply x) :
    ∃ site, .sys (.api (.call i (.get site))) ∈ pre ∧ ((y = .mailboxError ∧ TurnedAway pre i 1 (.addVisitor site) ∧ Undone (zLog lib p n ql now conns steps) i (.addVisitor site)) ∨
    ∃ q r id b, pre = q ++ r ∧ Died steps q i 1 (.addVisitor site) id b ∧ y = if b then .recvError else .mailboxError) := by
  obtain ⟨q, r, rfl⟩ := List.append_of_mem (mem_atCalls.1 hm)
  have hl : zLog lib p n ql now conns steps = q ++ .sys (.api (.master i y)) :: (r ++ post) := by rw [hlog]; simp
  obtain ⟨site, hcall, ⟨rfl, q', rfl, hq⟩ | ⟨id, b, h1, h2⟩⟩ := master_at hl hy
  · exact ⟨site, List.mem_append_left _ hcall, .inl ⟨rfl, ⟨q', r, _, by simp, .inl rfl⟩,
      fun id b m' h1 h2 h3 => absurd h3 (refused_unasked hl ⟨rfl, hy⟩ hq id b m' h1 h2)⟩⟩
  · exact ⟨site, List.mem_append_left _ hcall, .inr ⟨q, _, id, b, rfl, h1, h2⟩⟩

/-- Why a call fails with `MailboxError` or `RecvError`. -/
theorem lost_cases {lib : PowLib} {p : Profile} {n ql now : Nat} {conns : List Nat} {steps : List ZStep} {pre post : List ZEvent} {i : Nat} {api : Api}
    {e : CaptchaError} (hlog : zLog lib p n ql now conns steps = pre ++ .sys (.api (.ret i api (api.fails e))) :: post)
    (he : e = .mailboxError ∨ e = .recvError) :
    ∃ a m, SendsTo api a m ∧ ((e = .mailboxError ∧ TurnedAway pre i a m ∧ Undone (zLog lib p n ql now conns steps) i m) ∨
    ∃ q r id b, pre = q ++ r ∧ Died steps q i a m id b ∧ e = if b then .recvError else .mailboxError) := by
  obtain ⟨os, ho⟩ := zlog_open hlog
  cases api with
  | get site =>
    have := C99_get_outcome lib p n ql now os i site _ _ _ ho
    simp only [Api.fails] at this
    have hm : ∀ y, (∀ x, y ≠ .reply x) → .api (.master i y) ∈ atCalls pre → (y = .mailboxError → e = .mailboxError) → (y = .recvError → e = .recvError) →
        ∃ a m, SendsTo (.get site) a m ∧ ((e = .mailboxError ∧ TurnedAway pre i a m ∧ Undone (zLog lib p n ql now conns steps) i m) ∨
          ∃ q r id b, pre = q ++ r ∧ Died steps q i a m id b ∧ e = if b then .recvError else .mailboxError) := by
      intro y hy hm h1 h2
      obtain ⟨site', hcall, h⟩ := master_lost hlog hm hy
      obtain ⟨os', ho'⟩ := (zinv_run lib p n ql now conns steps).sys
      have hone := open_made lib p n ql now os'
      rw [ho'] at hone
      have e1 := (hone.1 i (.get site')).1 (mem_atCalls.2 (show _ ∈ zLog lib p n ql now conns steps by rw [hlog]; exact List.mem_append_left _ hcall))
      have e2 := hone.2 i (.get site) _ (mem_atCalls.2 (show .sys (.api (.ret i (.get site) ((Api.get site).fails e))) ∈ zLog lib p n ql now conns steps by rw [hlog]; simp))
      rw [e1] at e2
      cases e2
      refine ⟨1, .addVisitor site, .inl ⟨rfl, rfl⟩, ?_⟩
      rcases h with ⟨h3, h4⟩ | ⟨q, r, id, b, h3, h4, h5⟩
      · exact .inl ⟨h1 h3, h4⟩
      · refine .inr ⟨q, r, id, b, h3, h4, ?_⟩
        cases b
        · exact h1 h5
        · exact h2 h5
    rcases this with ⟨rfl, h⟩ | ⟨rfl, h⟩ | ⟨s, res, -, h⟩
    · exact hm _ (by simp) h (fun _ => rfl) (by simp)
    · exact hm _ (by simp) h (by simp) (fun _ => rfl)
    · exact ⟨0, _, .inr ⟨rfl, _, rfl, rfl⟩, failed_lost hlog h he⟩
  | verify work ip =>
    have := C99_verify_outcome lib p n ql now os i work ip _ _ _ ho
    simp only [Api.fails] at this
    rcases this with ⟨rfl, -⟩ | ⟨cfg, -, ⟨rfl, -⟩ | ⟨rfl, -⟩ | ⟨rfl, -⟩⟩ | hm | ⟨_, _, hm, -⟩
    · rcases he with he | he <;> cases he
    · rcases he with he | he <;> cases he
    · rcases he with he | he <;> cases he
    · rcases he with he | he <;> cases he
    · exact ⟨0, _, ⟨rfl, .inl rfl⟩, failed_lost hlog hm he⟩
    · exact ⟨0, _, ⟨rfl, .inr ⟨_, rfl, rfl⟩⟩, failed_lost hlog hm he⟩
  | validate msg =>
    have := C99_validate_outcome lib p n ql now os i msg _ _ _ ho
    exact ⟨0, _, ⟨rfl, rfl⟩, failed_lost hlog this he⟩

/-! ## C119 On Redis, each call sends each of its requests once -/

/-- C119. A call sends no two requests of the same kind. -/
theorem C119_each_request_once (lib : PowLib) (p : Profile) (n ql now : Nat) (conns : List Nat) (steps : List ZStep) (i id id' a a' : Nat) (m m' : RMsg)
    (h1 : .asked i id ∈ zLog lib p n ql now conns steps) (h2 : .asked i id' ∈ zLog lib p n ql now conns steps)
    (h3 : .net (.actor (.sent a id m)) ∈ zLog lib p n ql now conns steps) (h4 : .net (.actor (.sent a' id' m')) ∈ zLog lib p n ql now conns steps)
    (h : SameKind m m') : id = id' := ask_once h1 h2 h3 h4 h

/-- C119. What a call sends is what its function asks for, and goes where it should. -/
theorem C119_own_requests (lib : PowLib) (p : Profile) (n ql now : Nat) (conns : List Nat) (steps : List ZStep) (i id : Nat) (api : Api)
    (h : .asked i id ∈ zLog lib p n ql now conns steps) (hc : .sys (.api (.call i api)) ∈ zLog lib p n ql now conns steps) :
    ∃ a m, .net (.actor (.sent a id m)) ∈ zLog lib p n ql now conns steps ∧ SendsTo api a m := by
  have hz := zinv_run lib p n ql now conns steps
  rw [show (zRun lib p (RService.new n ql now conns) steps).2 = zLog lib p n ql now conns steps from rfl] at hz
  obtain ⟨a, m, h1, api', h2, h3⟩ := hz.asked i id h
  obtain ⟨os, ho⟩ := hz.sys
  have hone := (open_made lib p n ql now os).1
  rw [ho] at hone
  have e1 := (hone i api).1 (mem_atCalls.2 hc)
  rw [(hone i api').1 (mem_atCalls.2 h2)] at e1
  cases e1
  refine ⟨a, m, h1, ?_⟩
  rcases h3 with ⟨site, rfl, rfl, rfl⟩ | ⟨cm, k, rfl, rfl, hp⟩
  · exact .inl ⟨rfl, rfl⟩
  · cases k with
    | storePow cfg => obtain ⟨site, r, rfl, -, -, -, -, rfl⟩ := hp; exact .inr ⟨rfl, _, rfl, rfl⟩
    | retrieve => obtain ⟨work, ip, rfl, rfl⟩ := hp; exact ⟨rfl, .inl rfl⟩
    | storeResult t d => obtain ⟨work, ip, cfg, rfl, -, hk, -, rfl, -⟩ := hp; exact ⟨rfl, .inr ⟨_, hk, rfl⟩⟩
    | check => obtain ⟨msg, rfl, rfl⟩ := hp; exact ⟨rfl, rfl⟩

/-- C119. After it has returned, or has been cancelled, a call sends nothing. -/
theorem C119_no_request_after (lib : PowLib) (p : Profile) (n ql now : Nat) (conns : List Nat) (steps : List ZStep) (i id : Nat) (e : SEvent)
    (he : e = .cancelled i ∨ ∃ api r, e = .ret i api r) (pre post : List ZEvent)
    (hlog : zLog lib p n ql now conns steps = pre ++ .sys (.api e) :: post) : .asked i id ∉ post := by
  refine no_ask_after hlog ?_ id
  rcases he with rfl | ⟨api, r, rfl⟩ <;> exact rfl

/-- C118. If a call fails with `MailboxError`, the actor did not take one of its requests, or died before the handler ran, and nothing is ever done
for any request of that kind that the call sent: it never goes to the server, and the server never carries it out. -/
theorem C118_mailbox_error (lib : PowLib) (p : Profile) (n ql now : Nat) (conns : List Nat) (steps : List ZStep) (i : Nat) (api : Api)
    (pre post : List ZEvent) (hlog : zLog lib p n ql now conns steps = pre ++ .sys (.api (.ret i api (api.fails .mailboxError))) :: post) :
    ∃ a m, SendsTo api a m ∧ (TurnedAway pre i a m ∨ ∃ id, .asked i id ∈ pre ∧ .net (.actor (.sent a id m)) ∈ pre) ∧
      Undone (zLog lib p n ql now conns steps) i m := by
  obtain ⟨a, m, hs, ⟨-, h, hu⟩ | ⟨q, r, id, b, rfl, hd, he⟩⟩ := lost_cases hlog (.inl rfl)
  · exact ⟨a, m, hs, .inl h, hu⟩
  · cases b with
    | true => cases he
    | false =>
      refine ⟨a, m, hs, .inr ⟨id, List.mem_append_left _ hd.asked, List.mem_append_left _ hd.sent⟩, ?_⟩
      have hu := (died_after (by rw [hlog, List.append_assoc]) hd).2 fun b c h => hd.begun ⟨b, .inl ⟨c, h⟩⟩
      intro id' b' m' h1 h2 h3
      have := ask_once (show .asked i id ∈ zLog lib p n ql now conns steps by rw [hlog]; simp [hd.asked]) h1
        (show .net (.actor (.sent a id m)) ∈ zLog lib p n ql now conns steps by rw [hlog]; simp [hd.sent]) h2 h3
      subst this
      exact hu

/-- C118. If a call fails with `RecvError`, the actor died over its request, which is never answered. Either the connection was in use; then
nothing is ever done for the request. Or the server carried it out, and the client could not bear the reply; or the request was to store the
token, and the connection failed. -/
theorem C118_recv_error (lib : PowLib) (p : Profile) (n ql now : Nat) (conns : List Nat) (steps : List ZStep) (i : Nat) (api : Api)
    (pre post : List ZEvent) (hlog : zLog lib p n ql now conns steps = pre ++ .sys (.api (.ret i api (api.fails .recvError))) :: post) :
    ∃ a m id, SendsTo api a m ∧ .asked i id ∈ pre ∧ .net (.actor (.sent a id m)) ∈ pre ∧
      (∀ b m' ans, .net (.actor (.answered b id m' ans)) ∉ zLog lib p n ql now conns steps) ∧
      ((.net (.actor (.crashed a id .alreadyBorrowed)) ∈ pre ∧ NothingDone (zLog lib p n ql now conns steps) id) ∨
       (∃ r t, .net (.served id m r t) ∈ pre ∧ Unbearable m r) ∨
       (.net (.actor (.started a id m.command)) ∈ pre ∧ ∃ c e, m = .cacheResult c ∧ .net (.fail a e) ∈ steps)) := by
  obtain ⟨a, m, hs, ⟨h, -⟩ | ⟨q, r, id, b, rfl, hd, he⟩⟩ := lost_cases hlog (.inr rfl)
  · cases h
  · cases b with
    | false => cases he
    | true =>
      have hd' := died_after (by rw [hlog, List.append_assoc]) hd
      refine ⟨a, m, id, hs, List.mem_append_left _ hd.asked, List.mem_append_left _ hd.sent, hd'.1, ?_⟩
      have hb := hd.begun
      simp only [if_true] at hb
      rcases hb with ⟨h1, h2⟩ | ⟨h1, ⟨r, t, h2, h3⟩ | h2⟩
      · exact .inl ⟨List.mem_append_left _ h1, hd'.2 h2⟩
      · exact .inr (.inl ⟨r, t, List.mem_append_left _ h2, h3⟩)
      · exact .inr (.inr ⟨List.mem_append_left _ h1, h2⟩)

/-- C118. If the validation of a token fails with `MailboxError` or `RecvError`, nothing is ever done for it: the token is not spent. -/
theorem C118_validate_undone (lib : PowLib) (p : Profile) (n ql now : Nat) (conns : List Nat) (steps : List ZStep) (i : Nat) (msg : VerifyCaptchaResult)
    (e : CaptchaError) (he : e = .mailboxError ∨ e = .recvError)
    (hm : .sys (.api (.ret i (.validate msg) (.validate (.error e)))) ∈ zLog lib p n ql now conns steps)
    (id : Nat) (hid : .asked i id ∈ zLog lib p n ql now conns steps) : NothingDone (zLog lib p n ql now conns steps) id := by
  obtain ⟨pre, post, hlog⟩ := List.append_of_mem hm
  have hown : ∃ b, .net (.actor (.sent b id (.verify msg))) ∈ zLog lib p n ql now conns steps := by
    obtain ⟨os, ho⟩ := (zinv_run lib p n ql now conns steps).sys
    have hone := open_made lib p n ql now os
    rw [ho] at hone
    obtain ⟨b, m, h1, -, rfl⟩ := C119_own_requests lib p n ql now conns steps i id (.validate msg) hid
      (mem_atCalls.1 ((hone.1 i _).2 (hone.2 i _ _ (mem_atCalls.2 hm))))
    exact ⟨b, h1⟩
  obtain ⟨b, hb⟩ := hown
  rcases he with rfl | rfl
  · obtain ⟨a, m, ⟨-, rfl⟩, -, hu⟩ := C118_mailbox_error lib p n ql now conns steps i (.validate msg) pre post hlog
    exact hu id b _ hid hb trivial
  · obtain ⟨a, m, id', ⟨-, rfl⟩, h1, h2, -, h3⟩ := C118_recv_error lib p n ql now conns steps i (.validate msg) pre post hlog
    have := ask_once (show .asked i id' ∈ zLog lib p n ql now conns steps by rw [hlog]; simp [h1]) hid
      (show .net (.actor (.sent a id' (.verify msg))) ∈ zLog lib p n ql now conns steps by rw [hlog]; simp [h2]) hb trivial
    subst this
    rcases h3 with ⟨-, h3⟩ | ⟨r, t, -, h3⟩ | ⟨-, c, e, h3, -⟩
    · exact h3
    · cases h3
    · cases h3

/-- The cache and the master share a connection, and the cache crashes over the request of call 1, which finds it in use; the request of call 2
is still in its mailbox; call 3 comes too late. Then a visit is counted, with a reply that is no JSON: the master crashes (call 0). -/
def exLostCalls : List ZStep :=
  [.sys (.call (.get "site")), .ask 0, .net (.take 1), .sys (.call (.validate ⟨"t", "site"⟩)), .ask 1, .sys (.call (.validate ⟨"u", "site"⟩)), .ask 2,
   .net (.take 0), .hear 1 (fun _ => 0), .hear 2 (fun _ => 0), .sys (.call (.verify exWork "ip")), .ask 3,
   .net (.serve 0 (.ok (.bulk "?"))), .net (.deliver 1 0), .hear 0 (fun _ => 0)]

example : (atCalls (zLog sysLib ⟨true⟩ 1 5 0 [0, 0] exLostCalls)).filter (fun e => match e with | .api (.ret _ _ _) => true | _ => false) =
    [.api (.ret 1 (.validate ⟨"t", "site"⟩) (.validate (.error .recvError))),
     .api (.ret 2 (.validate ⟨"u", "site"⟩) (.validate (.error .mailboxError))),
     .api (.ret 3 (.verify exWork "ip") (.verify (.error .mailboxError))),
     .api (.ret 0 (.get "site") (.get (.error .recvError)))] := by decide +kernel

/-- The third case of `C118_recv_error`: the connection breaks while the token is stored, after the server has stored it; the visitor gets a
`RecvError`, and the token is there. -/
def exLostToken : List ZStep :=
  [.sys (.call (.get "site")), .ask 0, .net (.take 1), .net (.serve 0 exReply), .net (.deliver 1 0), .hear 0 (fun _ => 0),
   .ask 0, .net (.take 0), .net (.serve 0 (.ok .okay)), .net (.deliver 0 0), .hear 0 (fun _ => 0), .sys (.resume 0),
   .sys (.call (.verify exWork "ip")), .ask 1, .net (.take 0), .net (.serve 0 exReply), .net (.deliver 0 0), .hear 1 (fun _ => 0), .sys (.resume 1),
   .sys (.queue .manage), .sys (.resume 1), .sys (.queue (.take 0)), .sys (.work 0), .sys (.work 0), .sys (.work 0), .sys (.poll 1 (fun _ => 1)),
   .sys (.work 0), .sys (.queue (.finish 0)), .ask 1, .net (.take 0), .net (.serve 0 (.ok .nil)), .net (.fail 0 "broken pipe"), .hear 1 (fun _ => 0)]

example : (atCalls (zLog sysLib ⟨true⟩ 1 5 0 [0, 1] exLostToken)).filter (fun e => match e with | .api (.ret 1 _ _) => true | _ => false) =
    [.api (.ret 1 (.verify exWork "ip") (.verify (.error .recvError)))] ∧
    ((zRun sysLib ⟨true⟩ (RService.new 1 5 0 [0, 1]) exLostToken).1.net.replies.map Prod.snd).length = 1 := by decide +kernel

/-- C119 on a run: a call of `get` sends its two requests, a validation its one, however often they may go on; another is cancelled while it
waits, and sends nothing more. -/
def exAsks : List ZStep :=
  [.sys (.call (.get "site")), .ask 0, .ask 0, .net (.take 1), .net (.serve 0 exReply), .net (.deliver 1 0), .hear 0 (fun _ => 0), .ask 0, .ask 0,
   .net (.take 0), .net (.serve 0 (.ok .okay)), .net (.deliver 0 0), .hear 0 (fun _ => 0), .ask 0, .sys (.resume 0), .ask 0,
   .sys (.call (.validate ⟨"t", "site"⟩)), .ask 1, .ask 1, .sys (.call (.validate ⟨"t", "site"⟩)), .ask 2, .cancel 2, .ask 2]

example : (zLog sysLib ⟨true⟩ 1 5 0 [0, 1] exAsks).filterMap (fun e => match e with | .asked i id => some (some i, id) | .sys (.api (.cancelled i)) => some (none, i) | _ => none) =
    [(some 0, 0), (some 0, 1), (some 1, 2), (some 2, 3), (none, 2)] := by decide +kernel

end MCap
