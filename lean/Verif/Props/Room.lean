import Verif.Props.Relate
import Verif.Props.Book
import Verif.Props.Queue
/-
C90: `EventQueueFull` exactly if the events do not fit.
-/
namespace AOB
variable {C : Type} [CallbackInfo C] {m m' : Market C} {p : NewOrderParams C} {s : OrderSummary}

/-! ### In the reference engine -/

omit [CallbackInfo C] in
theorem emit_ok_inv {es : List (Event C)} {x : Except AoError (MatchOut C)} {r : MatchOut C}
    (h : x.map (MatchOut.emit es) = .ok r) : ∃ r', x = .ok r' ∧ r = r'.emit es := by
  cases x with
  | error e => cases h
  | ok r' => exact ⟨r', rfl, by cases h; rfl⟩

omit [CallbackInfo C] in
theorem emit_error_inv {es : List (Event C)} {x : Except AoError (MatchOut C)} {e : AoError}
    (h : x.map (MatchOut.emit es) = .error e) : x = .error e := by
  cases x with
  | error e => cases h; rfl
  | ok r' => cases h

/-- Matching that finds no room would have emitted more events than there is room. -/
theorem refMatch_full {p : NewOrderParams C} {mb : Nat} : ∀ (n r1 r2 : Nat) (opp : List (Order C)) (b q : Nat) (cr : Bool)
    {r : MatchOut C}, refMatch p mb n r1 opp b q cr = .error .eventQueueFull → refMatch p mb n r2 opp b q cr = .ok r →
    r1 < r.events.length
  | 0, _, _, _, _, _, _, _, h, _ => by simp [refMatch] at h
  | _ + 1, _, _, [], _, _, _, _, h, _ => by simp [refMatch] at h
  | n + 1, r1, r2, o :: rest, b, q, cr, r, h1, h2 => by
    simp only [refMatch] at h1 h2
    split_ifs at h1 h2 <;> first
      | (cases h1; done)
      | (cases h2; done)
      | (obtain ⟨r', _, rfl⟩ := emit_ok_inv h2
         simp only [MatchOut.emit, List.length_append, List.length_cons, List.length_nil]
         omega)
      | (obtain ⟨r', g2, rfl⟩ := emit_ok_inv h2
         have := refMatch_full n _ _ _ _ _ _ (emit_error_inv h1) g2
         simp only [MatchOut.emit, List.length_append, List.length_cons, List.length_nil]
         omega)

theorem refMatch_fits {p : NewOrderParams C} {mb : Nat} : ∀ (n r1 : Nat) (opp : List (Order C)) (b q : Nat) (cr : Bool)
    {r : MatchOut C}, refMatch p mb n r1 opp b q cr = .ok r → r.events.length ≤ r1
  | 0, _, _, _, _, _, _, h => by simp only [refMatch, Except.ok.injEq] at h; subst h; simp
  | _ + 1, _, [], _, _, _, _, h => by simp only [refMatch, Except.ok.injEq] at h; subst h; simp
  | n + 1, r1, o :: rest, b, q, cr, r, h => by
    simp only [refMatch] at h
    split_ifs at h <;> first
      | (cases h; simp; done)
      | (obtain ⟨r', g, rfl⟩ := emit_ok_inv h
         have := refMatch_fits n _ _ _ _ _ g
         simp only [MatchOut.emit, List.length_append, List.length_cons, List.length_nil]
         omega)

omit [CallbackInfo C] in
theorem refPost_full {side : Side} {cap r1 r2 : Nat} {own : List (Order C)} {o : Order C} {po : PostOut C}
    (h1 : refPost side cap r1 own o = .error .eventQueueFull) (h2 : refPost side cap r2 own o = .ok po) :
    r1 = 0 ∧ po.posted = true ∧ po.events.length = 1 := by
  unfold refPost at *
  cases hl : own.getLast? with
  | none => rw [hl] at h1; simp only at h1; split_ifs at h1
  | some w =>
    rw [hl] at h1 h2
    simp only at h1 h2
    split_ifs at h1 h2 <;> first
      | (cases h2; exact ⟨by assumption, rfl, rfl⟩)

/-- A new order that finds the queue too full would have emitted more events than there is room. -/
theorem newOrder_full {a : RefMarket C} {k : Nat} {fs : List (Event C)} {p : NewOrderParams C}
    (h1 : a.newOrder p = .error (.ao .eventQueueFull)) {s : OrderSummary} {a' : RefMarket C}
    (h2 : ({ a with capEvents := k, events := fs } : RefMarket C).newOrder p = .ok (s, a')) :
    a.capEvents - a.events.length < a'.events.length - fs.length := by
  unfold RefMarket.newOrder at *
  simp only [orders_with, cap_with] at h1 h2
  by_cases ht : a.tick = 0
  · rw [if_pos ht] at h1; cases h1
  rw [if_neg ht] at h1 h2
  by_cases hl : p.limitPrice % a.tick ≠ 0 ∨ (p.postAllowed ∧ p.limitPrice < a.tick)
  · rw [if_pos hl] at h2; cases h2
  rw [if_neg hl] at h1 h2
  cases hy : refMatch p a.minBase p.matchLimit (k - fs.length) (a.orders p.side.opposite)
    p.maxBaseQty p.maxQuoteQty true with
  | error e => rw [hy] at h2; cases h2
  | ok r =>
    rw [hy] at h2
    cases hx : refMatch p a.minBase p.matchLimit (a.capEvents - a.events.length) (a.orders p.side.opposite)
      p.maxBaseQty p.maxQuoteQty true with
    | error e =>
      rw [hx] at h1
      have he : e = .eventQueueFull := by cases h1; rfl
      subst he
      have := refMatch_full _ _ _ _ _ _ _ hx hy
      have hlen : fs.length + r.events.length ≤ a'.events.length := by
        simp only at h2
        split_ifs at h2
        · cases h2; simp
        · have hw : ∀ (x : RefMarket C) ev, ({ x with events := ev } : RefMarket C).orders p.side = x.orders p.side := by
            intro _ _; cases p.side <;> rfl
          have hown : ∀ (cap' : Nat) (ev : List (Event C)),
            (({ a with capEvents := cap', events := ev } : RefMarket C).setOrders p.side.opposite r.opp).orders p.side =
              a.orders p.side := by
            intro _ _; cases p.side <;> rfl
          rw [hw, hown] at h2
          cases hz : refPost p.side (a.cap p.side) (k - (fs ++ r.events).length) (a.orders p.side)
            ⟨mkOrderId p.side p.limitPrice a.seq, min (affordable r.quote p.limitPrice) r.base, p.callbackInfo⟩ with
          | error e => rw [hz] at h2; cases h2
          | ok po =>
            rw [hz] at h2
            simp only at h2
            split_ifs at h2 <;> cases h2
            · cases p.side <;> simp <;> omega
            · cases p.side <;> simp
      omega
    | ok r' =>
      have hrr : r' = r := by
        have := refMatch_room (p := p) (mb := a.minBase) p.matchLimit (a.capEvents - a.events.length) (k - fs.length)
          (a.orders p.side.opposite) p.maxBaseQty p.maxQuoteQty true (by rw [hx]; simp) (by rw [hy]; simp)
        rw [hx, hy] at this
        exact Except.ok.inj this
      subst hrr
      have hfit := refMatch_fits _ _ _ _ _ _ hx
      rw [hx] at h1
      simp only at h1 h2
      split_ifs at h1 h2
      have hown : ∀ (cap' : Nat) (ev : List (Event C)),
        (({ a with capEvents := cap', events := ev } : RefMarket C).setOrders p.side.opposite r'.opp).orders p.side =
          a.orders p.side := by
        intro _ _; cases p.side <;> rfl
      have hown' : (a.setOrders p.side.opposite r'.opp).orders p.side = a.orders p.side := by
        cases p.side <;> rfl
      have hw : ∀ (x : RefMarket C) ev, ({ x with events := ev } : RefMarket C).orders p.side = x.orders p.side := by
        intro _ _; cases p.side <;> rfl
      rw [hw, hown] at h2
      rw [hw, hown'] at h1
      cases hz : refPost p.side (a.cap p.side) (k - (fs ++ r'.events).length) (a.orders p.side)
        ⟨mkOrderId p.side p.limitPrice a.seq, min (affordable r'.quote p.limitPrice) r'.base, p.callbackInfo⟩ with
      | error e => rw [hz] at h2; cases h2
      | ok po =>
        cases hv : refPost p.side (a.cap p.side) (a.capEvents - (a.events ++ r'.events).length) (a.orders p.side)
          ⟨mkOrderId p.side p.limitPrice a.seq, min (affordable r'.quote p.limitPrice) r'.base, p.callbackInfo⟩ with
        | ok po' => rw [hv] at h1; simp only at h1; split_ifs at h1
        | error e =>
          rw [hv] at h1
          have he : e = .eventQueueFull := by cases h1; rfl
          subst he
          obtain ⟨g1, g2, g3⟩ := refPost_full hv hz
          rw [hz] at h2
          simp only [g2, if_true] at h2
          rw [List.length_append] at g1
          cases h2
          cases p.side <;> simp [g3] <;> omega

/-! ### The theorems -/

theorem exec_newOrder_error {e : Err} (h : m.newOrder p = .error e) : m.exec (.newOrder p) = .error e := by
  simp only [Market.exec, h]; rfl

theorem exec_newOrder_ok (h : m.newOrder p = .ok (s, m')) : m.exec (.newOrder p) = .ok (some s, m') := by
  simp only [Market.exec, h, ok_bind]

theorem newOrder_of_exec {x : Option OrderSummary} (h : m.exec (.newOrder p) = .ok (x, m')) :
    ∃ s, x = some s ∧ m.newOrder p = .ok (s, m') := by
  cases hx : m.newOrder p with
  | error e => rw [exec_newOrder_error hx] at h; cases h
  | ok y => rw [exec_newOrder_ok (s := y.1) (m' := y.2) hx] at h; cases h; exact ⟨y.1, rfl, rfl⟩

theorem newOrder_error_of_exec {e : Err} (h : m.exec (.newOrder p) = .error e) : m.newOrder p = .error e := by
  cases hx : m.newOrder p with
  | error e' => rw [exec_newOrder_error hx] at h; cases h; rfl
  | ok y => rw [exec_newOrder_ok (s := y.1) (m' := y.2) hx] at h; cases h

/-- C90: let two markets differ at most in their event queues, and let one of them accept an order. The other one accepts it,
with the same answer, exactly if the events that the order emits fit into its queue. Otherwise it answers `EventQueueFull`. -/
theorem C90_fits {c1 c2 is1 is2} {m1 m2 m2' : Market C} (h1 : ReachBy c1 is1 m1) (h2 : ReachBy c2 is2 m2)
    (hr : SameRules c1 c2) (hs : SameTrading m1 m2) (hp : (Instr.newOrder p).Ok) (he : m2.newOrder p = .ok (s, m2')) :
    ((pending m1).length + (emitted m2 m2').length ≤ c1.capEvents →
      ∃ m1', m1.newOrder p = .ok (s, m1') ∧ SameTrading m1' m2' ∧ emitted m1 m1' = emitted m2 m2') ∧
    (c1.capEvents < (pending m1).length + (emitted m2 m2').length → m1.newOrder p = .error (.ao .eventQueueFull)) := by
  have main : m1.newOrder p ≠ .error (.ao .eventQueueFull) →
      ∃ m1', m1.newOrder p = .ok (s, m1') ∧ SameTrading m1' m2' ∧ emitted m1 m1' = emitted m2 m2' := by
    intro hf
    rcases C64_queue_irrelevant h1 h2 hr hs hp rfl
      (fun h => hf (newOrder_error_of_exec h)) (by rw [exec_newOrder_ok he]; simp) with
      ⟨x, m1', m2'', g1, g2, g3, g4⟩ | ⟨e1, e2, _, g2, _⟩
    · rw [exec_newOrder_ok he] at g2
      cases g2
      obtain ⟨s', hs', g⟩ := newOrder_of_exec g1
      cases hs'
      exact ⟨m1', g, g3, g4⟩
    · rw [exec_newOrder_ok he] at g2; cases g2
  constructor
  · intro hfit
    apply main
    intro hfull
    obtain ⟨a1, a2, k1, k2, ha⟩ := core_of h1 h2 hr hs
    have r1 := exec_refines k1.rep k1.inv (.newOrder p) hp
    have r2 := exec_refines k2.rep k2.inv (.newOrder p) hp
    have x1 : a1.newOrder p = .error (.ao .eventQueueFull) := by
      cases hx : a1.newOrder p with
      | error e =>
        have : a1.exec (.newOrder p) = .error e := by simp only [RefMarket.exec, hx]; rfl
        rw [this, exec_newOrder_error hfull] at r1
        rcases r1 with r1 | ⟨_, r1⟩
        · cases r1; rfl
        · cases r1
      | ok y =>
        have : a1.exec (.newOrder p) = .ok (some y.1, y.2) := by simp only [RefMarket.exec, hx]; rfl
        rw [this, exec_newOrder_error hfull] at r1
        obtain ⟨_, r1, _⟩ := r1
        cases r1
    cases hy : a2.newOrder p with
    | error e =>
      have : a2.exec (.newOrder p) = .error e := by simp only [RefMarket.exec, hy]; rfl
      rw [this, exec_newOrder_ok he] at r2
      rcases r2 with r2 | ⟨_, r2⟩ <;> cases r2
    | ok y =>
      have : a2.exec (.newOrder p) = .ok (some y.1, y.2) := by simp only [RefMarket.exec, hy]; rfl
      rw [this, exec_newOrder_ok he] at r2
      obtain ⟨m2'', r2, q2⟩ := r2
      cases r2
      rw [ha] at hy
      have hlt := newOrder_full x1 (s := y.1) (a' := y.2) hy
      unfold emitted at hfit
      rw [q2.pending, k2.rep.pending, k1.rep.pending, List.length_drop] at hfit
      have hce : a1.capEvents = c1.capEvents := by
        obtain ⟨k, _, hpar⟩ := h1.known
        exact k1.rep.capEvents.symm.trans (k.rep.capEvents.trans hpar.capEvents)
      omega
  · intro hlt
    by_contra hne
    obtain ⟨m1', g1, _, g3⟩ := main hne
    have h1' := h1.step hp
    have hst : m1.step (.newOrder p) = m1' := by unfold Market.step; rw [exec_newOrder_ok g1]
    rw [hst] at h1'
    have hcap := (C12_parameters h1').2.2.2
    have := C49_appended h1.reachable hp g1
    rw [← g3] at hlt
    rw [this, List.length_append] at hcap
    omega

omit [CallbackInfo C] in
theorem emitted_room (hq : ∃ es, pending m' = pending m ++ es) : (emitted m m').length + (pending m).length = (pending m').length := by
  obtain ⟨es, h⟩ := hq
  unfold emitted
  rw [h, List.drop_left, List.length_append]
  omega

/-- Cancellations do not look at the queue. -/
theorem exec_cancel_withQueue (a : RefMarket C) (k : Nat) (fs : List (Event C)) {i : Instr C} (hc : i.isCrank = false)
    (hn : ∀ p, i ≠ .newOrder p) : (a.withQueue k fs).exec i = (a.exec i).map (fun x => (x.1, x.2.withQueue k fs)) := by
  cases i with
  | newOrder p => exact absurd rfl (hn p)
  | consumeEvents n => cases hc
  | cancelOrder id =>
    simp only [RefMarket.exec, RefMarket.cancelOrder, cancel1_withQueue]
    cases a.cancel1 id <;> rfl
  | massCancelOrders ids =>
    simp only [RefMarket.exec, RefMarket.massCancelOrders, massCancel_withQueue]
    cases RefMarket.massCancelFrom ids 0 0 a <;> rfl

/-- C90: every market that can arise also arises with a larger queue, an empty one. -/
theorem C90_larger_queue {c is} (h : ReachBy c is m) {k : Nat} (hk : c.capEvents ≤ k) (hk' : k ≤ 2 ^ 62) :
    ∃ is2 m2, ReachBy { c with capEvents := k } is2 m2 ∧ SameTrading m m2 ∧ pending m2 = [] := by
  obtain ⟨hv, hi, c0, rfl⟩ := h
  have hv2 : ({ c with capEvents := k } : Config).Valid :=
    ⟨hv.minBase, hv.tick, hv.bids, hv.asks, ⟨Nat.lt_of_lt_of_le hv.events.1 hk, hk'⟩⟩
  have hrules : SameRules { c with capEvents := k } c := ⟨rfl, rfl, rfl, rfl⟩
  induction is using List.reverseRecOn with
  | nil =>
    have r1 : ReachBy c ([] : List (Instr C)) (c.market c0) := ⟨hv, hi, c0, rfl⟩
    have r2 : ReachBy { c with capEvents := k } ([] : List (Instr C)) (({ c with capEvents := k } : Config).market c0) :=
      ⟨hv2, hi, c0, rfl⟩
    obtain ⟨k1, _, _⟩ := r1.known
    obtain ⟨k2, _, _⟩ := r2.known
    refine ⟨[], _, r2, ⟨?_, ?_, ?_⟩, ?_⟩
    · exact (k1.rep.resting .bid).trans (k2.rep.resting .bid).symm
    · exact (k1.rep.resting .ask).trans (k2.rep.resting .ask).symm
    · exact k1.rep.seq.trans k2.rep.seq.symm
    · exact k2.rep.pending
  | append_singleton is i ih =>
    have hi1 : ∀ j ∈ is, j.Ok := fun j hj => hi j (by simp [hj])
    have hio : i.Ok := hi i (by simp)
    obtain ⟨is2, m2, r2, hs, hpe⟩ := ih hi1
    have r1 : ReachBy c is ((c.market c0).run is) := ⟨hv, hi1, c0, rfl⟩
    rw [show (c.market c0).run (is ++ [i]) = ((c.market c0).run is).step i by simp [Market.run]]
    generalize (c.market c0).run is = m at *
    by_cases hcr : i.isCrank = true
    · cases i with
      | consumeEvents n =>
        have := crank_same r1 n
        exact ⟨is2, m2, r2, ⟨this.bids.symm.trans hs.bids, this.asks.symm.trans hs.asks, this.seq.symm.trans hs.seq⟩, hpe⟩
      | newOrder p => cases hcr
      | cancelOrder id => cases hcr
      | massCancelOrders ids => cases hcr
    · have hcr : i.isCrank = false := by simpa using hcr
      cases hx : m.exec i with
      | error e =>
        have : m.step i = m := by unfold Market.step; rw [hx]
        rw [this]
        exact ⟨is2, m2, r2, hs, hpe⟩
      | ok y =>
        obtain ⟨x, m'⟩ := y
        have hst : m.step i = m' := by unfold Market.step; rw [hx]
        rw [hst]
        have key : ∃ x2 m2', m2.exec i = .ok (x2, m2') ∧ SameTrading m' m2' := by
          have flip : ∀ {u v : Market C}, SameTrading u v → SameTrading v u :=
            fun h => ⟨h.bids.symm, h.asks.symm, h.seq.symm⟩
          by_cases hn : ∃ p, i = .newOrder p
          · obtain ⟨p, rfl⟩ := hn
            obtain ⟨s, _, he⟩ := newOrder_of_exec hx
            have hcap := (C12_parameters (r1.step hio)).2.2.2
            rw [hst] at hcap
            have hlen := emitted_room ⟨_, C49_appended r1.reachable hio he⟩
            obtain ⟨m2', g1, g2, _⟩ := (C90_fits r2 r1 hrules (flip hs) hio he).1 (by
              rw [hpe, List.length_nil]
              show 0 + _ ≤ k
              omega)
            exact ⟨_, m2', exec_newOrder_ok g1, flip g2⟩
          · have hn' : ∀ p, i ≠ .newOrder p := fun p hp => hn ⟨p, hp⟩
            obtain ⟨a1, a2, k1, k2, ha⟩ := core_of r1 r2 ⟨rfl, rfl, rfl, rfl⟩ hs
            have e1 := exec_refines k1.rep k1.inv i hio
            have e2 := exec_refines k2.rep k2.inv i hio
            rw [ha, exec_cancel_withQueue _ _ _ hcr hn'] at e2
            cases hy : a1.exec i with
            | error e =>
              rw [hy, hx] at e1
              rcases e1 with e1 | ⟨_, e1⟩ <;> cases e1
            | ok y =>
              rw [hy] at e1 e2
              obtain ⟨w1, f1, q1⟩ := e1
              obtain ⟨w2, f2, q2⟩ := e2
              rw [hx] at f1
              cases f1
              refine ⟨_, w2, f2, ?_, ?_, ?_⟩
              · exact (q1.resting .bid).trans (q2.resting .bid).symm
              · exact (q1.resting .ask).trans (q2.resting .ask).symm
              · exact q1.seq.trans q2.seq.symm
        obtain ⟨x2, m2', g1, g2⟩ := key
        have r3 := r2.step hio
        have hst2 : m2.step i = m2' := by unfold Market.step; rw [g1]
        rw [hst2] at r3
        have g3 := crank_same r3 (pending m2').length
        obtain ⟨m3, e1, e2, _, _⟩ := C26_consume r3.reachable (pending m2').length
        have hst3 : m2'.step (.consumeEvents (pending m2').length) = m3 := by
          simp only [Market.step, Market.exec, e1, ok_bind]
        refine ⟨_, _, r3.step (i := .consumeEvents (pending m2').length) trivial,
          ⟨g2.bids.trans g3.bids, g2.asks.trans g3.asks, g2.seq.trans g3.seq⟩, ?_⟩
        rw [hst3, e2, List.drop_length]

/-! ### Concrete cases -/

/-- The demo market with a queue of `k` events. User 3's order emits six. -/
def demoQueue (k : Nat) : Market DemoCb := (({ demoCfg with capEvents := k } : Config).market ⟨0, 0⟩).run demoHist

theorem demoQueue_reachBy {k : Nat} (h : 0 < k ∧ k ≤ 2 ^ 62) :
    ReachBy ({ demoCfg with capEvents := k } : Config) demoHist (demoQueue k) :=
  ⟨⟨demo_valid.minBase, demo_valid.tick, demo_valid.bids, demo_valid.asks, h⟩, by decide +kernel, ⟨0, 0⟩, rfl⟩

example : (emitted demo demoAfter).length = 6 := by decide +kernel
example := (C90_fits (demoQueue_reachBy (k := 6) (by decide)) demo_reachBy ⟨rfl, rfl, rfl, rfl⟩
  ⟨by decide +kernel, by decide +kernel, by decide +kernel⟩ demoTake_ok demo_take).1 (by decide +kernel)
example := (C90_fits (demoQueue_reachBy (k := 5) (by decide)) demo_reachBy ⟨rfl, rfl, rfl, rfl⟩
  ⟨by decide +kernel, by decide +kernel, by decide +kernel⟩ demoTake_ok demo_take).2 (by decide +kernel)
example := C90_larger_queue demo_reachBy (k := 2 ^ 62) (by decide) (by decide)

end AOB
