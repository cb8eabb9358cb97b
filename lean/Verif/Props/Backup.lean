import Verif.Spec.Backup
import Verif.Props.MasterRace
import Verif.Props.Wire

/-!
# C114: a backup kept as text
-/

namespace MCap
open Spec

theorem readBackup_saved {texts : List (List Char)} {es : List (SiteId × MCaptcha)} (h : SavedAs texts es) (hf : ∀ e ∈ es, FitsTypes e.2) :
    readBackup texts = some es := by
  induction h with
  | nil => rfl
  | cons t ts e es hd hr ih =>
    have h1 : (jsonParse t).bind InternalData.ofJson = some ⟨e.1, e.2⟩ := by
      have hj : jsonParse t = some (InternalData.toJson ⟨e.1, e.2⟩) := parse_denotes hd
      rw [hj]
      have he := hf e (.head _)
      exact (C85_internal_data_round_trip ⟨e.1, e.2⟩ he.visitors he.levels he.position he.duration).2.2 _ (text_denotes _)
    have h2 : readBackup ts = some es := ih fun x hx => hf x (.tail _ hx)
    unfold readBackup at h2 ⊢
    rw [List.mapM_cons, h1, h2]
    rfl

/-- Answers depend on the captcha alone. -/
theorem answersTo_same (p : Profile) (now : Nat) (msgs : List CounterMsg) (c c' : Counter) (hm : c.m = c'.m) (ha : c.alive = c'.alive) :
    masterSays p now c msgs = masterSays p now c' msgs := by
  induction msgs generalizing c c' with
  | nil => rfl
  | cons x r ih =>
    have key : ∀ (y : CounterMsg), (∃ w, c.send p now y = .panic w ∧ c'.send p now y = .panic w) ∨
        ∃ d d' a, c.send p now y = .ret (d, a) ∧ c'.send p now y = .ret (d', a) ∧ d.m = d'.m ∧ d.alive = d'.alive := by
      intro y
      unfold Counter.send
      rw [← ha]
      by_cases hal : c.alive = true
      · rw [if_pos hal, if_pos hal]
        cases y with
        | addVisitor =>
          simp only [Counter.handleAddVisitor, ← hm]
          cases h : c.m.addVisitor p with
          | panic w => exact .inl ⟨w, rfl, rfl⟩
          | ret m' =>
            cases h2 : AddVisitorResult.new m' with
            | panic w => exact .inl ⟨w, by simp [Exec.bind, h2, Exec.map], by simp [Exec.bind, h2, Exec.map]⟩
            | ret a =>
              exact .inr ⟨{ c with m := m', timers := c.timers ++ [⟨now + c.m.getDuration, 1⟩] },
                { c' with m := m', timers := c'.timers ++ [⟨now + c.m.getDuration, 1⟩] }, .visitor a,
                by simp [Exec.bind, h2, Exec.map], by simp [Exec.bind, h2, Exec.map], rfl, ha⟩
        | getCurrentVisitorCount => exact .inr ⟨_, _, _, rfl, by simp only [Counter.handleGetCurrentVisitorCount, hm], hm, ha⟩
        | getInternalData => exact .inr ⟨_, _, _, rfl, by simp only [Counter.handleGetInternalData, hm], hm, ha⟩
        | setInternalData m => exact .inr ⟨_, _, _, rfl, rfl, rfl, ha⟩
        | stop => exact .inr ⟨_, _, _, rfl, rfl, hm, rfl⟩
      · rw [if_neg hal, if_neg hal]
        exact .inr ⟨_, _, _, rfl, rfl, hm, ha⟩
    simp only [masterSays]
    rcases key x with ⟨w, h1, h2⟩ | ⟨d, d', a, h1, h2, h3, h4⟩
    · rw [h1, h2]
    · rw [h1, h2]
      show (masterSays p now d r).map _ = (masterSays p now d' r).map _
      rw [ih d d' h3 h4]

/-- C114. From every state in which the registered counters run, the answer to `GetInternalData`, written as JSON site by site in any order,
can be read back, and given to a fresh master it registers the same sites: each with the same captcha, so that messages to it are answered as
the original counter answers them. -/
theorem C114_backup_through_text (p : Profile) (w : World) (hw : Reachable p w) (hc : w.crashed = false) (tag : Nat)
    (hal : ∀ id a, lookup w id = some a → ∃ c, w.counters[a]? = some c ∧ c.alive = true)
    (hf : ∀ id c, siteCounter w id = some c → FitsTypes c.m) :
    ∃ k data, wrun p w (.req tag .getInternalData :: .run w.tasks.length :: List.replicate k (.run 0)) = w.answer tag (.data data) ∧
      ∀ (order : List (SiteId × MCaptcha)) (texts : List (List Char)), order.Perm data → SavedAs texts order →
      ∃ back, readBackup texts = some back ∧ ∀ now gc tag',
        let v := wrun p (World.init now gc) (.req tag' (.setInternalData back) :: List.replicate back.length (.run 1))
        v.crashed = false ∧ v.answers = [(tag', .unit)] ∧ ∀ id,
          (siteCounter v id).map (·.m) = (siteCounter w id).map (·.m) ∧
          ∀ t msgs, (siteCounter v id).map (fun c => masterSays p t c msgs) = (siteCounter w id).map (fun c => masterSays p t c msgs) := by
  obtain ⟨k, data, h1, h2, h3⟩ := C33_backup_exact p w hw hc tag hal
  refine ⟨k, data, h1, ?_⟩
  intro order texts ho hs
  have hfit : ∀ e ∈ order, FitsTypes e.2 := by
    intro e he
    have hg := AMap.get_of_mem h2 (ho.subset he)
    rw [h3] at hg
    obtain ⟨c, hc1, hc2⟩ := Option.map_eq_some_iff.1 hg
    rw [← hc2]
    exact hf e.1 c hc1
  refine ⟨order, readBackup_saved hs hfit, ?_⟩
  intro now gc tag'
  obtain ⟨r1, r2, -, -, r5⟩ := C33_restore_exact p now gc tag' data h2 order ho
  refine ⟨r1, r5, ?_⟩
  intro id
  have hsc : siteCounter (wrun p (World.init now gc) (.req tag' (.setInternalData order) :: List.replicate order.length (.run 1))) id =
      ((siteCounter w id).map (·.m)).map Counter.start := by rw [r2 id, h3 id]
  rw [hsc]
  cases hcw : siteCounter w id with
  | none => exact ⟨rfl, fun _ _ => rfl⟩
  | some c =>
    refine ⟨rfl, fun t msgs => ?_⟩
    have hca : c.alive = true := by
      unfold siteCounter at hcw
      cases hl : lookup w id with
      | none => rw [hl] at hcw; cases hcw
      | some a =>
        rw [hl] at hcw
        obtain ⟨c', e1, e2⟩ := hal id a hl
        have : some c' = some c := e1.symm.trans hcw
        cases this
        exact e2
    show some (masterSays p t (Counter.start c.m) msgs) = some (masterSays p t c msgs)
    rw [answersTo_same p t msgs (Counter.start c.m) c rfl (by rw [hca]; rfl)]

/-- Two sites, one of them visited, and the backup of the service read back. -/
example : let w := wrun ⟨true⟩ (World.init 0 60) [.req 0 (.addSite "a" exM), .req 1 (.addSite "b" exM), .req 2 (.addVisitor "b"), .run 1]
    w.crashed = false ∧ (siteCounter w "b").map (·.m.getVisitors) = some 1 ∧ w.tasks.length = 1 ∧
    wrun ⟨true⟩ w (.req 9 .getInternalData :: .run 1 :: List.replicate 2 (.run 0)) =
      w.answer 9 (.data [("a", exM), ("b", { exM with visitors := 1 })]) ∧
    readBackup [(InternalData.toJson ⟨"b", { exM with visitors := 1 }⟩).text, (InternalData.toJson ⟨"a", exM⟩).text] =
      some [("b", { exM with visitors := 1 }), ("a", exM)] := by
  refine ⟨by decide, by decide, by decide, by decide, by decide +kernel⟩

end MCap
