import Verif.Props.Count
import Verif.Props.Room
import Verif.Props.Failure
/-
C106: how often events must be consumed so that no order is refused for want of room; and sharper bounds for C13 and C19.
-/
namespace AOB
variable {C : Type} [CallbackInfo C] {m m' : Market C} {p : NewOrderParams C} {s : OrderSummary}

/-- Matching that finds that prices do not cross has spent one step of the match limit without an event. -/
theorem refMatch_uncrossed {mb : Nat} : ∀ (n room : Nat) (opp : List (Order C)) (b q : Nat) {r : MatchOut C},
    refMatch p mb n room opp b q true = .ok r → r.crossed = false → r.events.length + 2 ≤ 2 * n
  | 0, _, _, _, _, r, h, hc => by simp only [refMatch, Except.ok.injEq] at h; subst h; cases hc
  | n + 1, _, [], _, _, r, h, _ => by
    simp only [refMatch, Except.ok.injEq] at h; subst h; simp only [List.length_nil]; omega
  | n + 1, room, o :: rest, b, q, r, h, hc => by
    simp only [refMatch] at h
    split_ifs at h <;> first
      | (cases h; simp only [List.length_nil]; omega)
      | (obtain ⟨r', g, rfl⟩ := emit_ok_inv h
         have := refMatch_uncrossed n _ _ _ _ g hc
         simp only [MatchOut.emit, List.length_append, List.length_cons, List.length_nil]
         omega)

omit [CallbackInfo C] in
theorem refPost_events {side : Side} {cap room : Nat} {own : List (Order C)} {o : Order C} {po : PostOut C}
    (h : refPost side cap room own o = .ok po) : po.events.length ≤ 1 := by
  unfold refPost at h
  repeat' split at h
  all_goals first
    | (simp only [Except.ok.injEq] at h; subst h; simp; done)
    | cases h

theorem newOrder_events_le {a a' : RefMarket C} (h : a.newOrder p = .ok (s, a')) :
    a'.events.length ≤ a.events.length + 2 * p.matchLimit := by
  rw [newOrder_eq] at h
  split at h
  · cases h
  split at h
  · cases h
  split at h
  · cases h
  rename_i r hr
  have hl := refMatch_ok_events hr
  unfold RefMarket.finish at h
  simp only at h
  split at h
  · cases h; simp only [List.length_append]; omega
  rename_i hnp
  have hcr : r.crossed = false := by
    simp only [Bool.or_eq_true, not_or, Bool.not_eq_true] at hnp
    exact hnp.1.1
  have hl' := refMatch_uncrossed _ _ _ _ _ hr hcr
  split at h
  · cases h
  split at h
  · cases h
  rename_i po hpo
  have := refPost_events hpo
  split at h
  · cases h; simp only [List.length_append]; omega
  · cases h; simp only [List.length_append]; omega

theorem newOrder_full_lt {a : RefMarket C} (h : a.newOrder p = .error (.ao .eventQueueFull)) :
    a.capEvents - a.events.length < 2 * p.matchLimit := by
  rw [newOrder_eq] at h
  split at h
  · cases h
  split at h
  · cases h
  split at h
  · rename_i e hr
    have he : e = .eventQueueFull := by cases h; rfl
    subst he
    rcases refMatch_error _ _ _ _ _ _ _ hr with h | h
    · exact h.2
    · cases h.1
  rename_i r hr
  unfold RefMarket.finish at h
  simp only at h
  split at h
  · cases h
  rename_i hnp
  have hcr : r.crossed = false := by
    simp only [Bool.or_eq_true, not_or, Bool.not_eq_true] at hnp
    exact hnp.1.1
  have hl' := refMatch_uncrossed _ _ _ _ _ hr hcr
  split at h
  · cases h
  split at h
  · rename_i e hpo
    have := (refPost_error hpo).2
    rw [List.length_append] at this
    omega
  · split at h <;> cases h

/-- C13, sharp: a new order emits at most `2 * match_limit` events, the one for an evicted order included: an order can only
be posted if a step of the match limit was spent on finding that prices do not cross. -/
theorem C13_events (h : Reachable m) (hp : (Instr.newOrder p).Ok) (he : m.newOrder p = .ok (s, m')) :
    (emitted m m').length ≤ 2 * p.matchLimit := by
  obtain ⟨a, ha⟩ := h.known
  obtain ⟨a', h1, h2⟩ := ha.newOrder_ok hp he
  have := newOrder_events_le h1
  unfold emitted
  rw [h2.rep.pending, ha.rep.pending, List.length_drop]
  omega

/-- C19, sharp: `EventQueueFull` is answered only if fewer than `2 * match_limit` events can be added. -/
theorem C19_full {c is} (h : ReachBy c is m) (hp : (Instr.newOrder p).Ok) (he : m.newOrder p = .error (.ao .eventQueueFull)) :
    c.capEvents < (pending m).length + 2 * p.matchLimit := by
  obtain ⟨ha, _, hpar⟩ := h.known
  have hr := newOrder_refines ha.rep ha.inv p hp
  cases hx : RefMarket.newOrder ((c.ref : RefMarket C).run is) p with
  | ok x =>
    rw [hx] at hr
    obtain ⟨m1, h1, _⟩ := hr
    rw [h1] at he; cases he
  | error e' =>
    rw [hx] at hr
    simp only at hr
    rw [hr] at he
    cases he
    have := newOrder_full_lt hx
    rw [ha.rep.pending, show c.capEvents = _ from hpar.capEvents.symm]
    omega

/-- What an instruction can at most add to the queue, and what it takes away: the count of somebody who sees only the
instructions. -/
def backlog (n : Nat) : Instr C → Nat
  | .newOrder p => n + 2 * p.matchLimit
  | .consumeEvents k => n - k
  | _ => n

/-- The same over a list of instructions, in front of each order: is there room for what it can add? -/
def KeepsUp (cap : Nat) : Nat → List (Instr C) → Prop
  | _, [] => True
  | n, i :: is => (∀ p, i = .newOrder p → n + 2 * p.matchLimit ≤ cap) ∧ KeepsUp cap (backlog n i) is

theorem step_events (a : RefMarket C) (i : Instr C) : (a.step i).events.length ≤ backlog a.events.length i := by
  unfold RefMarket.step
  cases i with
  | newOrder p =>
    simp only [RefMarket.exec, backlog]
    cases h : a.newOrder p with
    | error e => simp only [Except.map]; omega
    | ok x => exact newOrder_events_le h
  | cancelOrder id =>
    simp only [RefMarket.exec, backlog, RefMarket.cancelOrder]
    cases h : a.cancel1 id with
    | none => simp only [Except.map]; exact Nat.le_refl _
    | some x =>
      simp only [Except.map]
      rw [(cancel1_params h).2.2]
  | massCancelOrders ids =>
    simp only [RefMarket.exec, backlog, RefMarket.massCancelOrders]
    cases h : RefMarket.massCancelFrom ids 0 0 a with
    | error e => simp only [Except.map]; exact Nat.le_refl _
    | ok x => simp only [Except.map]; rw [(massCancelFrom_params h).2.2]
  | consumeEvents n => simp only [RefMarket.exec, backlog, List.length_drop]; exact Nat.le_refl _

omit [CallbackInfo C] in
theorem backlog_mono {n n' : Nat} (h : n ≤ n') (i : Instr C) : backlog n i ≤ backlog n' i := by
  cases i <;> simp only [backlog] <;> omega

/-- C106. Whoever counts `2 * match_limit` events for each order and subtracts what is consumed never counts too few. -/
theorem C106_backlog : ∀ {js : List (Instr C)} {c is} {m : Market C}, ReachBy c is m → (∀ j ∈ js, j.Ok) → ∀ {n : Nat},
    (pending m).length ≤ n → (pending (m.run js)).length ≤ js.foldl backlog n
  | [], _, _, _, _, _, _, hn => hn
  | j :: js, c, is, m, h, hj, n, hn => by
    have h' := h.step (hj j (by simp))
    refine C106_backlog (js := js) h' (fun i hi => hj i (by simp [hi])) (Nat.le_trans ?_ (backlog_mono hn j))
    rw [h.known.1.rep.pending, h'.known.1.rep.pending]
    have := step_events ((c.ref : RefMarket C).run is) j
    rwa [show (c.ref : RefMarket C).run (is ++ [j]) = ((c.ref : RefMarket C).run is).step j by
      simp only [RefMarket.run, List.foldl_append, List.foldl_cons, List.foldl_nil]]

/-- C106. If by this count there is always room for the next order, no order is ever refused for want of room. -/
theorem C106_never_full : ∀ {js : List (Instr C)} {c is} {m : Market C}, ReachBy c is m → (∀ j ∈ js, j.Ok) → ∀ {n : Nat},
    (pending m).length ≤ n → KeepsUp c.capEvents n js → ∀ {js₁ js₂ : List (Instr C)} {p : NewOrderParams C},
    js = js₁ ++ .newOrder p :: js₂ → (m.run js₁).newOrder p ≠ .error (.ao .eventQueueFull)
  | js, c, is, m, h, hj, n, hn, hk, [], js₂, p, e => by
    subst e
    intro he
    have h1 := C19_full h (hj _ (by simp)) he
    have h2 := hk.1 p rfl
    omega
  | js, c, is, m, h, hj, n, hn, hk, j :: js₁, js₂, p, e => by
    subst e
    have h' := h.step (hj j (by simp))
    refine C106_never_full (js := js₁ ++ .newOrder p :: js₂) h' (fun i hi => hj i (by simp at hi ⊢; tauto))
      (n := backlog n j) ?_ hk.2 rfl
    exact C106_backlog (js := [j]) h (fun i hi => by rw [List.mem_singleton] at hi; rw [hi]; exact hj j (by simp)) hn

/-- C106. So it is enough to consume `2 * match_limit` events after every order, if the queue can hold that many. -/
theorem C106_consume_after_each {c : Config} {is : List (Instr C)} (h : ReachBy c is m) (hempty : pending m = [])
    {ps : List (NewOrderParams C)} (hps : ∀ p ∈ ps, (Instr.newOrder p).Ok ∧ 2 * p.matchLimit ≤ c.capEvents)
    {ps₁ ps₂ : List (NewOrderParams C)} (e : ps = ps₁ ++ p :: ps₂) :
    (m.run (ps₁.flatMap (fun q => [.newOrder q, .consumeEvents (2 * q.matchLimit)]))).newOrder p ≠ .error (.ao .eventQueueFull) := by
  let f : NewOrderParams C → List (Instr C) := fun q => [.newOrder q, .consumeEvents (2 * q.matchLimit)]
  have hk : ∀ (l : List (NewOrderParams C)), (∀ q ∈ l, 2 * q.matchLimit ≤ c.capEvents) → KeepsUp c.capEvents 0 (l.flatMap f) := by
    intro l
    induction l with
    | nil => intro _; exact trivial
    | cons q l ih =>
      intro hl
      rw [List.flatMap_cons]
      refine ⟨fun p' hp' => ?_, ⟨fun p' hp' => ?_, ?_⟩⟩
      · cases hp'; rw [Nat.zero_add]; exact hl q (by simp)
      · cases hp'
      · have : backlog (C := C) (backlog 0 (Instr.newOrder q)) (.consumeEvents (2 * q.matchLimit)) = 0 := by
          simp [backlog]
        show KeepsUp c.capEvents (backlog (C := C) (backlog 0 (Instr.newOrder q)) (.consumeEvents (2 * q.matchLimit))) (l.flatMap f)
        rw [this]
        exact ih (fun x hx => hl x (by simp [hx]))
  refine C106_never_full (js := ps.flatMap f) (js₂ := .consumeEvents (2 * p.matchLimit) :: ps₂.flatMap f) h ?_ (n := 0) (by rw [hempty]; rfl)
    (hk ps (fun q hq => (hps q hq).2)) ?_
  · intro j hj
    obtain ⟨q, hq, hjq⟩ := List.mem_flatMap.1 hj
    simp only [f, List.mem_cons, List.not_mem_nil, or_false] at hjq
    rcases hjq with rfl | rfl
    · exact (hps q hq).1
    · trivial
  · rw [e, List.flatMap_append, List.flatMap_cons]
    rfl

/-- C19: with `2 * match_limit` free event slots and no `AbortTransaction`, `new_order` succeeds. -/
theorem C19_success_sharp {c is} (h : ReachBy c is m) (hlen : is.length + 1 < 2 ^ 64) (hp : (Instr.newOrder p).Ok)
    (ht : c.tick ∣ p.limitPrice) (ht' : p.postAllowed = true → c.tick ≤ p.limitPrice)
    (hroom : (pending m).length + 2 * p.matchLimit ≤ c.capEvents)
    (hab : p.selfTradeBehavior ≠ .abortTransaction) : ∃ s m', m.newOrder p = .ok (s, m') := by
  cases he : m.newOrder p with
  | ok x => exact ⟨x.1, x.2, rfl⟩
  | error e =>
    rcases C19_only_failures h hlen hp ht ht' he with rfl | ⟨rfl, hs⟩
    · have := C19_full h hp he
      omega
    · exact absurd hs hab

/-! ### Concrete cases -/

example := C19_success_sharp demo_reachBy (p := { demoTake with matchLimit := 6 }) (by decide +kernel) (by decide +kernel)
  (by decide +kernel) (by decide +kernel) (by decide +kernel) (by decide +kernel)

/-- C106: `2 * match_limit` is needed. An order with a match limit of 1 that takes the first ask whole gives two events; a
queue with one place refuses it. -/
theorem C106_sharp_witness :
    let take := { demoOrder .bid 5 10 9 with matchLimit := 1 }
    (demo.newOrder take).map (fun x => (emitted demo x.2).length) = .ok 2 ∧
    demoTight.newOrder take = .error (.ao .eventQueueFull) := by
  decide +kernel

example := C13_events demo_reachable demoTake_ok demo_take
example := C19_full demoTight_reachBy demoTake_ok (by decide +kernel)
example := C106_backlog demo_reachBy (js := [.newOrder demoTake, .consumeEvents 3]) (by decide +kernel) (Nat.le_refl _)
/-- Two orders one after the other, with twelve places: each may look at six orders at most. -/
example := C106_consume_after_each demo_reachBy (by decide +kernel) (p := { demoOrder .ask 9 8 7 with matchLimit := 6 })
  (ps := [{ demoTake with matchLimit := 6 }, { demoOrder .ask 9 8 7 with matchLimit := 6 }])
  (ps₁ := [{ demoTake with matchLimit := 6 }]) (ps₂ := []) (by decide +kernel) rfl

end AOB
