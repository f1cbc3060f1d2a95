import Verif.Proofs.Relate
import Verif.Props.Engine
/-
Two executions compared: other cranking, other queue sizes, other names, one order in two parts, an order posted and
cancelled again.
-/
namespace AOB
variable {C : Type} [CallbackInfo C] {m m' : Market C} {p : NewOrderParams C} {s : OrderSummary}

/-! ### The event queue -/

theorem core_of {c1 c2 : Config} {is1 is2 : List (Instr C)} {m1 m2 : Market C} (h1 : ReachBy c1 is1 m1)
    (h2 : ReachBy c2 is2 m2) (hr : SameRules c1 c2) (hs : SameTrading m1 m2) :
    ∃ a1 a2, Known m1 a1 ∧ Known m2 a2 ∧ a2 = a1.withQueue a2.capEvents a2.events := by
  obtain ⟨k1, _, p1⟩ := h1.known
  obtain ⟨k2, _, p2⟩ := h2.known
  refine ⟨_, _, k1, k2, ?_⟩
  revert k1 k2 p1 p2
  generalize (c1.ref : RefMarket C).run is1 = a1
  generalize (c2.ref : RefMarket C).run is2 = a2
  intro k1 p1 k2 p2
  refine SameCore.eq ⟨?_, ?_, ?_, ?_, ?_, ?_, ?_⟩
  · rw [p1.minBase, p2.minBase]; exact hr.minBase
  · rw [p1.tick, p2.tick]; exact hr.tick
  · have b1 := p1.cap .bid; have b2 := p2.cap .bid
    rw [config_cap] at b1 b2
    exact b1.trans (hr.bids.trans b2.symm)
  · have b1 := p1.cap .ask; have b2 := p2.cap .ask
    rw [config_cap] at b1 b2
    exact b1.trans (hr.asks.trans b2.symm)
  · exact k1.rep.seq.symm.trans (hs.seq.trans k2.rep.seq)
  · exact (k1.rep.resting .bid).symm.trans (hs.bids.trans (k2.rep.resting .bid))
  · exact (k1.rep.resting .ask).symm.trans (hs.asks.trans (k2.rep.resting .ask))

/-- C64: take two markets that differ at most in their event queues (in size and in what is pending, for instance because
they were cranked differently). An instruction other than `consume_events` that neither of them refuses for a full queue
gets the same answer from both, emits the same events, and they again differ at most in their queues. Or both refuse it
for another reason. -/
theorem C64_queue_irrelevant {c1 c2 is1 is2} {m1 m2 : Market C} (h1 : ReachBy c1 is1 m1) (h2 : ReachBy c2 is2 m2)
    (hr : SameRules c1 c2) (hs : SameTrading m1 m2) {i : Instr C} (hi : i.Ok) (hc : i.isCrank = false)
    (f1 : m1.exec i ≠ .error (.ao .eventQueueFull)) (f2 : m2.exec i ≠ .error (.ao .eventQueueFull)) :
    (∃ s m1' m2', m1.exec i = .ok (s, m1') ∧ m2.exec i = .ok (s, m2') ∧ SameTrading m1' m2' ∧
      emitted m1 m1' = emitted m2 m2') ∨
    (∃ e1 e2, m1.exec i = .error e1 ∧ m2.exec i = .error e2 ∧
      (e1 = e2 ∨ e1 = .ao .orderNotFound ∧ e2 = .panic ∨ e1 = .panic ∧ e2 = .ao .orderNotFound)) := by
  obtain ⟨a1, a2, k1, k2, ha⟩ := core_of h1 h2 hr hs
  have r1 := exec_refines k1.rep k1.inv i hi
  have r2 := exec_refines k2.rep k2.inv i hi
  have nofull : ∀ {m : Market C} {a : RefMarket C}, (match a.exec i with
      | .error e => m.exec i = .error e ∨ (e = .ao .orderNotFound ∧ m.exec i = .error .panic)
      | .ok (s, a') => ∃ m', m.exec i = .ok (s, m') ∧ MRep m' a') →
      m.exec i ≠ .error (.ao .eventQueueFull) → a.exec i ≠ .error (.ao .eventQueueFull) := by
    intro m a hr hf he
    rw [he] at hr
    rcases hr with hr | ⟨hr, _⟩
    · exact hf hr
    · cases hr
  have g1 := nofull r1 f1
  have g2 := nofull r2 f2
  rw [ha] at g2 r2
  rcases exec_room hc g1 g2 with ⟨e, x1, x2⟩ | ⟨s, a', es, x1, x2, x3⟩
  · rw [x1] at r1
    rw [x2] at r2
    right
    rcases r1 with r1 | ⟨rfl, r1⟩ <;> rcases r2 with r2 | ⟨hb, r2⟩
    · exact ⟨_, _, r1, r2, .inl rfl⟩
    · exact ⟨_, _, r1, r2, .inr (.inl ⟨hb, rfl⟩)⟩
    · exact ⟨_, _, r1, r2, .inr (.inr ⟨rfl, rfl⟩)⟩
    · exact ⟨_, _, r1, r2, .inl rfl⟩
  · rw [x1] at r1
    rw [x3] at r2
    obtain ⟨m1', y1, q1⟩ := r1
    obtain ⟨m2', y2, q2⟩ := r2
    refine .inl ⟨s, m1', m2', y1, y2, ⟨?_, ?_, ?_⟩, ?_⟩
    · exact (q1.resting .bid).trans (q2.resting .bid).symm
    · exact (q1.resting .ask).trans (q2.resting .ask).symm
    · exact q1.seq.trans q2.seq.symm
    · unfold emitted
      rw [q1.pending, q2.pending, k1.rep.pending, k2.rep.pending, x2]
      show _ = List.drop _ (a2.events ++ es)
      rw [List.drop_left, List.drop_left]

/-- Cranking leaves the orders and the sequence number alone. -/
theorem crank_same {c is} (h : ReachBy c is m) (n : Nat) : SameTrading m (m.step (.consumeEvents n)) := by
  obtain ⟨hk, _, _⟩ := h.known
  have hr := exec_refines hk.rep hk.inv (.consumeEvents n) trivial
  obtain ⟨m', h1, h2⟩ := hr
  have hst : m.step (.consumeEvents n) = m' := by unfold Market.step; rw [h1]
  rw [hst]
  exact ⟨(hk.rep.resting .bid).trans (h2.resting .bid).symm, (hk.rep.resting .ask).trans (h2.resting .ask).symm,
    hk.rep.seq.trans h2.seq.symm⟩

/-- The logs of one instruction agree, as far as they do not speak about `consume_events`. -/
theorem stepLog_same {m1 m2 : Market C} (hs : SameTrading m1 m2) {i : Instr C} (hc : i.isCrank = false)
    (h : (∃ s m1' m2', m1.exec i = .ok (s, m1') ∧ m2.exec i = .ok (s, m2') ∧ SameTrading m1' m2' ∧
      emitted m1 m1' = emitted m2 m2') ∨
      (∃ e1 e2, m1.exec i = .error e1 ∧ m2.exec i = .error e2 ∧
        (e1 = e2 ∨ e1 = .ao .orderNotFound ∧ e2 = .panic ∨ e1 = .panic ∧ e2 = .ao .orderNotFound))) :
    SameTrading (m1.step i) (m2.step i) ∧ (stepLog m1 i).posted = (stepLog m2 i).posted ∧
      (stepLog m1 i).events = (stepLog m2 i).events ∧ (stepLog m1 i).cancelled = (stepLog m2 i).cancelled := by
  have hall : allResting m1 = allResting m2 := by unfold allResting; rw [hs.bids, hs.asks]
  rcases h with ⟨s, m1', m2', h1, h2, h3, h4⟩ | ⟨e1, e2, h1, h2, _⟩
  · have hstep : SameTrading (m1.step i) (m2.step i) := by
      unfold Market.step; rw [h1, h2]; exact h3
    refine ⟨hstep, ?_⟩
    cases i with
    | newOrder p =>
      have inv : ∀ {m m' : Market C}, m.exec (.newOrder p) = .ok (s, m') → ∃ s', s = some s' ∧ m.newOrder p = .ok (s', m') := by
        intro m m' h
        unfold Market.exec at h
        cases hx : m.newOrder p with
        | error e => simp only [hx] at h; cases h
        | ok x => simp only [hx] at h; cases h; exact ⟨x.1, rfl, rfl⟩
      obtain ⟨s1, rfl, g1⟩ := inv h1
      obtain ⟨s2, hs2, g2⟩ := inv h2
      cases hs2
      simp only [stepLog, g1, g2, h4, and_self]
    | cancelOrder id =>
      have inv : ∀ {m m' : Market C}, m.exec (.cancelOrder id) = .ok (s, m') → ∃ x, m.cancelOrder id = .ok x := by
        intro m m' h
        unfold Market.exec at h
        cases hx : m.cancelOrder id with
        | error e => simp only [hx] at h; cases h
        | ok x => exact ⟨x, rfl⟩
      obtain ⟨x1, g1⟩ := inv h1
      obtain ⟨x2, g2⟩ := inv h2
      simp only [stepLog, g1, g2, hall, and_self]
    | massCancelOrders ids =>
      have inv : ∀ {m m' : Market C}, m.exec (.massCancelOrders ids) = .ok (s, m') → ∃ x, m.massCancelOrders ids = .ok x := by
        intro m m' h
        unfold Market.exec at h
        cases hx : m.massCancelOrders ids with
        | error e => simp only [hx] at h; cases h
        | ok x => exact ⟨x, rfl⟩
      obtain ⟨x1, g1⟩ := inv h1
      obtain ⟨x2, g2⟩ := inv h2
      simp only [stepLog, g1, g2, hall, and_self]
    | consumeEvents n => cases hc
  · have hstep : SameTrading (m1.step i) (m2.step i) := by
      unfold Market.step; rw [h1, h2]; exact hs
    refine ⟨hstep, ?_⟩
    have err : ∀ {m : Market C} {e}, m.exec i = .error e → stepLog m i = {} := by
      intro m e h
      cases i with
      | newOrder p =>
        unfold Market.exec at h
        cases hx : m.newOrder p with
        | error e => simp only [stepLog, hx]
        | ok x => simp only [hx] at h; cases h
      | cancelOrder id =>
        unfold Market.exec at h
        cases hx : m.cancelOrder id with
        | error e => simp only [stepLog, hx]
        | ok x => simp only [hx] at h; cases h
      | massCancelOrders ids =>
        unfold Market.exec at h
        cases hx : m.massCancelOrders ids with
        | error e => simp only [stepLog, hx]
        | ok x => simp only [hx] at h; cases h
      | consumeEvents n => cases hc
    rw [err h1, err h2]
    exact ⟨rfl, rfl, rfl⟩

/-- The log of a crank says nothing about trading. -/
theorem stepLog_crank (m : Market C) {i : Instr C} (hc : i.isCrank = true) :
    (stepLog m i).posted = [] ∧ (stepLog m i).events = [] ∧ (stepLog m i).cancelled = [] := by
  cases i with
  | consumeEvents n =>
    unfold stepLog
    simp only
    cases m.consumeEvents n <;> exact ⟨rfl, rfl, rfl⟩
  | _ => cases hc

/-- What two markets do to one instruction, if they agree on it. -/
def SameAnswer (m1 m2 : Market C) (i : Instr C) : Prop :=
  (∃ s m1' m2', m1.exec i = .ok (s, m1') ∧ m2.exec i = .ok (s, m2') ∧ SameTrading m1' m2' ∧
    emitted m1 m1' = emitted m2 m2') ∨
  (∃ e1 e2, m1.exec i = .error e1 ∧ m2.exec i = .error e2 ∧
    (e1 = e2 ∨ e1 = .ao .orderNotFound ∧ e2 = .panic ∨ e1 = .panic ∧ e2 = .ao .orderNotFound))

/-- If all instructions other than cranks get the same answers, so do histories with other cranks. -/
theorem same_from {c1 c2 : Config} {N1 N2 : Market C → Instr C → Prop}
    (hN : ∀ {js1 js2 m1 m2} {i : Instr C}, ReachBy c1 js1 m1 → ReachBy c2 js2 m2 → SameTrading m1 m2 → i.Ok →
      i.isCrank = false → N1 m1 i → N2 m2 i → SameAnswer m1 m2 i) :
    ∀ (n : Nat) {is1 is2 js1 js2 : List (Instr C)}
    {m1 m2 : Market C}, is1.length + is2.length ≤ n → ReachBy c1 js1 m1 → ReachBy c2 js2 m2 → SameTrading m1 m2 →
    (∀ i ∈ is1, i.Ok) → (∀ i ∈ is2, i.Ok) →
    is1.filter (fun i => !i.isCrank) = is2.filter (fun i => !i.isCrank) → Along N1 m1 is1 → Along N2 m2 is2 →
    SameTrading (m1.run is1) (m2.run is2) ∧ (runLog m1 is1).posted = (runLog m2 is2).posted ∧
      (runLog m1 is1).events = (runLog m2 is2).events ∧ (runLog m1 is1).cancelled = (runLog m2 is2).cancelled := by
  intro n
  induction n with
  | zero =>
    intro is1 is2 js1 js2 m1 m2 hn h1 h2 hs _ _ _ _ _
    obtain rfl : is1 = [] := List.length_eq_zero_iff.1 (by omega)
    obtain rfl : is2 = [] := List.length_eq_zero_iff.1 (by omega)
    exact ⟨hs, rfl, rfl, rfl⟩
  | succ n ih =>
    intro is1 is2 js1 js2 m1 m2 hn h1 h2 hs ok1 ok2 hf n1 n2
    have left : ∀ i is, is1 = i :: is → i.isCrank = true →
        SameTrading (m1.run is1) (m2.run is2) ∧ (runLog m1 is1).posted = (runLog m2 is2).posted ∧
        (runLog m1 is1).events = (runLog m2 is2).events ∧
        (runLog m1 is1).cancelled = (runLog m2 is2).cancelled := by
      intro i is he hc
      subst he
      have hst : SameTrading (m1.step i) m2 := by
        cases i with
        | consumeEvents k =>
          have := crank_same h1 k
          exact ⟨this.bids.symm.trans hs.bids, this.asks.symm.trans hs.asks, this.seq.symm.trans hs.seq⟩
        | _ => cases hc
      have g := ih (is1 := is) (is2 := is2) (by simp only [List.length_cons] at hn; omega)
        (h1.step (ok1 i (by simp))) h2 hst (fun j hj => ok1 j (by simp [hj])) ok2
        (by rw [← hf, List.filter_cons_of_neg (by simp [hc])]) n1.2 n2
      obtain ⟨c1, c2, c3⟩ := stepLog_crank m1 hc
      refine ⟨g.1, ?_, ?_, ?_⟩
      · show (stepLog m1 i).posted ++ _ = _
        rw [c1]; exact g.2.1
      · show (stepLog m1 i).events ++ _ = _
        rw [c2]; exact g.2.2.1
      · show (stepLog m1 i).cancelled ++ _ = _
        rw [c3]; exact g.2.2.2
    have right : ∀ i is, is2 = i :: is → i.isCrank = true →
        SameTrading (m1.run is1) (m2.run is2) ∧ (runLog m1 is1).posted = (runLog m2 is2).posted ∧
        (runLog m1 is1).events = (runLog m2 is2).events ∧
        (runLog m1 is1).cancelled = (runLog m2 is2).cancelled := by
      intro i is he hc
      subst he
      have hst : SameTrading m1 (m2.step i) := by
        cases i with
        | consumeEvents k =>
          have := crank_same h2 k
          exact ⟨hs.bids.trans this.bids, hs.asks.trans this.asks, hs.seq.trans this.seq⟩
        | _ => cases hc
      have g := ih (is1 := is1) (is2 := is) (by simp only [List.length_cons] at hn; omega)
        h1 (h2.step (ok2 i (by simp))) hst ok1 (fun j hj => ok2 j (by simp [hj]))
        (by rw [hf, List.filter_cons_of_neg (by simp [hc])]) n1 n2.2
      obtain ⟨c1, c2, c3⟩ := stepLog_crank m2 hc
      refine ⟨g.1, ?_, ?_, ?_⟩
      · show _ = (stepLog m2 i).posted ++ _
        rw [c1]; exact g.2.1
      · show _ = (stepLog m2 i).events ++ _
        rw [c2]; exact g.2.2.1
      · show _ = (stepLog m2 i).cancelled ++ _
        rw [c3]; exact g.2.2.2
    cases is1 with
    | nil =>
      cases is2 with
      | nil => exact ⟨hs, rfl, rfl, rfl⟩
      | cons j is2 =>
        cases hj : j.isCrank with
        | true => exact right j is2 rfl hj
        | false => rw [List.filter_cons_of_pos (by simp [hj])] at hf; cases hf
    | cons i is1 =>
      cases hi : i.isCrank with
      | true => exact left i is1 rfl hi
      | false =>
        cases is2 with
        | nil => rw [List.filter_cons_of_pos (by simp [hi])] at hf; cases hf
        | cons j is2 =>
          cases hj : j.isCrank with
          | true => exact right j is2 rfl hj
          | false =>
            rw [List.filter_cons_of_pos (by simp [hi]), List.filter_cons_of_pos (by simp [hj])] at hf
            injection hf with e1 e2
            subst e1
            have hst := stepLog_same hs hi (hN h1 h2 hs (ok1 i (by simp)) hi n1.1 n2.1)
            have g := ih (is1 := is1) (is2 := is2) (by simp only [List.length_cons] at hn; omega)
              (h1.step (ok1 i (by simp))) (h2.step (ok2 i (by simp))) hst.1 (fun k hk => ok1 k (by simp [hk]))
              (fun k hk => ok2 k (by simp [hk])) e2 n1.2 n2.2
            refine ⟨g.1, ?_, ?_, ?_⟩
            · show (stepLog m1 i).posted ++ _ = (stepLog m2 i).posted ++ _
              rw [hst.2.1, g.2.1]
            · show (stepLog m1 i).events ++ _ = (stepLog m2 i).events ++ _
              rw [hst.2.2.1, g.2.2.1]
            · show (stepLog m1 i).cancelled ++ _ = (stepLog m2 i).cancelled ++ _
              rw [hst.2.2.2, g.2.2.2]

/-- C64: the crank has no influence on trading, and neither has the size of the event queue. Two histories that contain
the same instructions apart from `consume_events`, on fresh markets with the same rules, end with the same resting orders
and have posted, traded and cancelled the same, provided no instruction was refused for a full queue. -/
theorem C64_crank_has_no_influence {c1 c2 : Config} {is1 is2 : List (Instr C)} {x1 x2 : C} (v1 : c1.Valid)
    (v2 : c2.Valid) (o1 : ∀ i ∈ is1, i.Ok) (o2 : ∀ i ∈ is2, i.Ok) (hr : SameRules c1 c2)
    (hf : is1.filter (fun i => !i.isCrank) = is2.filter (fun i => !i.isCrank))
    (f1 : NeverFull (c1.market x1) is1) (f2 : NeverFull (c2.market x2) is2) :
    SameTrading ((c1.market x1).run is1) ((c2.market x2).run is2) ∧
    (runLog (c1.market x1) is1).posted = (runLog (c2.market x2) is2).posted ∧
    (runLog (c1.market x1) is1).events = (runLog (c2.market x2) is2).events ∧
    (runLog (c1.market x1) is1).cancelled = (runLog (c2.market x2) is2).cancelled := by
  have r1 : ReachBy c1 [] (c1.market x1) := ⟨v1, by simp, x1, rfl⟩
  have r2 : ReachBy c2 [] (c2.market x2) := ⟨v2, by simp, x2, rfl⟩
  have s1 := C62_same_state r1
  have s2 := C62_same_state r2
  refine same_from (fun h1 h2 hs hi hc f1 f2 => C64_queue_irrelevant h1 h2 hr hs hi hc f1 f2) _ (le_refl _) r1 r2 ⟨?_, ?_, ?_⟩ o1 o2 hf f1 f2
  · rw [s1.bids, s2.bids]; rfl
  · rw [s1.asks, s2.asks]; rfl
  · rw [s1.seq, s2.seq]; rfl

/-! ### One order in two parts -/

/-- C65: an order executed in two parts (first at most `n1` rounds without posting, then at most `n2` rounds with what is
left of the caps) gives the same trades, the same totals and the same market as the whole order with `n1 + n2` rounds.
The second part must be allowed a round, unless the order is not to be posted anyway. -/
theorem C65_parts_give_the_whole {c is} (h : ReachBy c is m) (hp : (Instr.newOrder p).Ok) {n1 n2 : Nat}
    (hn : p.matchLimit = n1 + n2) (h2 : 0 < n2 ∨ p.postAllowed = false) {s1 s2 : OrderSummary} {m1 m2 : Market C}
    (e1 : m.newOrder (p.first n1) = .ok (s1, m1)) (e2 : m1.newOrder (p.second n2 s1) = .ok (s2, m2)) :
    ∃ m', m.newOrder p = .ok (s1.plus s2, m') ∧ SameShow m' m2 := by
  obtain ⟨hk, _, _⟩ := h.known
  generalize (c.ref : RefMarket C).run is = a at hk
  obtain ⟨a1, x1, k1⟩ := hk.newOrder_ok (p := p.first n1) hp e1
  have hp2 : (Instr.newOrder (p.second n2 s1)).Ok :=
    ⟨hp.1, lt_of_le_of_lt (Nat.sub_le _ _) hp.2.1, lt_of_le_of_lt (Nat.sub_le _ _) hp.2.2⟩
  obtain ⟨a2, x2, k2⟩ := k1.newOrder_ok hp2 e2
  have hl : ¬(p.postAllowed = true ∧ p.limitPrice < a.tick) := by
    obtain ⟨n, r, hn', _⟩ := newOrder_cases x2
    rintro ⟨g1, g2⟩
    have := hn'.tick.2.2 g1
    obtain ⟨_, _, hn'', _⟩ := newOrder_cases x1
    have ht := hn''.params.2.1
    rw [ht] at this
    exact absurd g2 (Nat.not_lt.2 this)
  have hw := newOrder_split (a := a) hn h2 hl
  rw [x1] at hw
  simp only at hw
  rw [x2] at hw
  have hr := newOrder_refines hk.rep hk.inv p hp
  rw [hw] at hr
  obtain ⟨m', y1, y2⟩ := hr
  exact ⟨m', y1, (y2.resting .bid).trans (k2.rep.resting .bid).symm, (y2.resting .ask).trans (k2.rep.resting .ask).symm,
    y2.pending.trans k2.rep.pending.symm, y2.seq.trans k2.rep.seq.symm⟩

/-- C65: and whenever the whole order succeeds, so do the two parts. -/
theorem C65_whole_gives_the_parts {c is} (h : ReachBy c is m) (hp : (Instr.newOrder p).Ok) {n1 n2 : Nat}
    (hn : p.matchLimit = n1 + n2) (h2 : 0 < n2 ∨ p.postAllowed = false) (he : m.newOrder p = .ok (s, m')) :
    ∃ s1 m1 s2 m2, m.newOrder (p.first n1) = .ok (s1, m1) ∧ m1.newOrder (p.second n2 s1) = .ok (s2, m2) ∧
      s = s1.plus s2 ∧ SameShow m' m2 := by
  obtain ⟨hk, _, _⟩ := h.known
  generalize (c.ref : RefMarket C).run is = a at hk
  obtain ⟨a', x, k⟩ := hk.newOrder_ok hp he
  have hl : ¬(p.postAllowed = true ∧ p.limitPrice < a.tick) := by
    obtain ⟨n, r, hn', _⟩ := newOrder_cases x
    rintro ⟨g1, g2⟩
    exact absurd g2 (Nat.not_lt.2 (hn'.tick.2.2 g1))
  have hw := newOrder_split (a := a) hn h2 hl
  rw [x] at hw
  have r1 := newOrder_refines hk.rep hk.inv (p.first n1) hp
  cases x1 : a.newOrder (p.first n1) with
  | error e => rw [x1] at hw; cases hw
  | ok y =>
    obtain ⟨s1, a1⟩ := y
    rw [x1] at hw r1
    obtain ⟨m1, y1, _⟩ := r1
    obtain ⟨a1', z1, k1⟩ := hk.newOrder_ok (p := p.first n1) hp y1
    rw [x1] at z1
    cases z1
    have hp2 : (Instr.newOrder (p.second n2 s1)).Ok :=
      ⟨hp.1, lt_of_le_of_lt (Nat.sub_le _ _) hp.2.1, lt_of_le_of_lt (Nat.sub_le _ _) hp.2.2⟩
    have r2 := newOrder_refines k1.rep k1.inv (p.second n2 s1) hp2
    simp only at hw
    cases x2 : a1.newOrder (p.second n2 s1) with
    | error e => rw [x2] at hw; cases hw
    | ok y =>
      obtain ⟨s2, a2⟩ := y
      rw [x2] at hw r2
      obtain ⟨m2, y2, q2⟩ := r2
      cases hw
      exact ⟨s1, m1, s2, m2, y1, y2, rfl, (k.rep.resting .bid).trans (q2.resting .bid).symm,
        (k.rep.resting .ask).trans (q2.resting .ask).symm, k.rep.pending.trans q2.pending.symm, k.rep.seq.trans q2.seq.symm⟩

/-- C65: a larger match limit only adds trades at the end. -/
theorem C65_limit_prefix {c is} (h : ReachBy c is m) (hp : (Instr.newOrder p).Ok) {n : Nat} (hn : n ≤ p.matchLimit)
    (hpost : p.postAllowed = false) (he : m.newOrder p = .ok (s, m')) :
    ∃ s1 m1, m.newOrder { p with matchLimit := n } = .ok (s1, m1) ∧ emitted m m1 <+: emitted m m' := by
  obtain ⟨s1, m1, s2, m2, e1, e2, _, hs⟩ := C65_whole_gives_the_parts h hp (n1 := n) (n2 := p.matchLimit - n)
    (by omega) (.inr hpost) he
  have hf : p.first n = { p with matchLimit := n } := by unfold NewOrderParams.first; rw [← hpost]
  refine ⟨s1, m1, by rw [← hf]; exact e1, ?_⟩
  obtain ⟨a, k⟩ := h.reachable.known
  obtain ⟨a1, _, _, _, x1, v1⟩ := k.view (p := p.first n) hp e1
  have hp2 : (Instr.newOrder (p.second (p.matchLimit - n) s1)).Ok :=
    ⟨hp.1, lt_of_le_of_lt (Nat.sub_le _ _) hp.2.1, lt_of_le_of_lt (Nat.sub_le _ _) hp.2.2⟩
  obtain ⟨a2, _, _, _, x2, v2⟩ := v1.known'.view hp2 e2
  unfold emitted
  rw [hs.events, v2.pend', ← v1.known'.rep.pending, v1.pend', v1.pend, List.append_assoc, List.drop_left, List.drop_left]
  exact List.prefix_append _ _

/-! ### Renaming users -/

/-- C66: the callback infos only matter in so far as a new order asks about them. With `DecrementTake` it asks nothing;
otherwise it asks which orders are of the same user as itself. Replacing the callback infos of a history so that every
answer stays the same replaces them in the resting orders and the pending events and changes nothing else. -/
theorem C66_only_what_is_asked {D : Type} [CallbackInfo D] {f : C → D} {c is} {m' : Market D}
    (hf : ∀ i ∈ is, i.Keeps f)
    (h : ReachBy c is m) (h' : ReachBy c (is.map (Instr.rename f)) m') :
    (∀ side, resting m' side = (resting m side).map (Order.rename f)) ∧
    pending m' = (pending m).map (Event.rename f) ∧ m'.queue.header.seqNum = m.queue.header.seqNum := by
  obtain ⟨k, _, _⟩ := h.known
  obtain ⟨k', _, _⟩ := h'.known
  have e : (c.ref : RefMarket D) = (c.ref : RefMarket C).rename f := rfl
  rw [e, run_rename is hf] at k'
  refine ⟨fun side => ?_, ?_, ?_⟩
  · rw [k'.rep.resting, k.rep.resting, orders_rename]
  · rw [k'.rep.pending, k.rep.pending]; rfl
  · rw [k'.rep.seq, k.rep.seq]; rfl

/-- C66: and every further instruction, with its callback info replaced, succeeds with the same summary or fails likewise. -/
theorem C66_same_answer_if_asked {D : Type} [CallbackInfo D] {f : C → D} {c is} {m' : Market D}
    (hf : ∀ i ∈ is, i.Keeps f)
    (h : ReachBy c is m) (h' : ReachBy c (is.map (Instr.rename f)) m') {i : Instr C} (hi : i.Ok) (hfi : i.Keeps f) :
    (∃ s x x', m.exec i = .ok (s, x) ∧ m'.exec (i.rename f) = .ok (s, x')) ∨
    (∃ e e', m.exec i = .error e ∧ m'.exec (i.rename f) = .error e' ∧
      (e = e' ∨ e = .ao .orderNotFound ∧ e' = .panic ∨ e = .panic ∧ e' = .ao .orderNotFound)) := by
  obtain ⟨k, _, _⟩ := h.known
  obtain ⟨k', _, _⟩ := h'.known
  have e : (c.ref : RefMarket D) = (c.ref : RefMarket C).rename f := rfl
  rw [e, run_rename is hf] at k'
  have hi' : (i.rename f).Ok := by cases i <;> exact hi
  have r := exec_refines k.rep k.inv i hi
  have r' := exec_refines k'.rep k'.inv (i.rename f) hi'
  rw [exec_rename _ hfi] at r'
  cases hx : ((c.ref : RefMarket C).run is).exec i with
  | ok x =>
    rw [hx] at r r'
    obtain ⟨x1, y1, _⟩ := r
    obtain ⟨x2, y2, _⟩ := r'
    exact .inl ⟨_, _, _, y1, y2⟩
  | error er =>
    rw [hx] at r r'
    right
    rcases r with r | ⟨rfl, r⟩ <;> rcases r' with r' | ⟨hb, r'⟩
    · exact ⟨_, _, r, r', .inl rfl⟩
    · exact ⟨_, _, r, r', .inr (.inl ⟨hb, rfl⟩)⟩
    · exact ⟨_, _, r, r', .inr (.inr ⟨rfl, rfl⟩)⟩
    · exact ⟨_, _, r, r', .inl rfl⟩

omit [CallbackInfo C] in
theorem Renames.keeps {D : Type} [CallbackInfo C] [CallbackInfo D] {f : C → D} (hf : Renames f) (i : Instr C) : i.Keeps f := by
  cases i with
  | newOrder p => exact .inr (hf p.callbackInfo)
  | _ => trivial

/-- C66: users are treated alike. Renaming the callback infos of a history, without merging or splitting users, renames
the resting orders and the pending events and changes nothing else. -/
theorem C66_names_do_not_matter {D : Type} [CallbackInfo D] {f : C → D} (hf : Renames f) {c is} {m' : Market D}
    (h : ReachBy c is m) (h' : ReachBy c (is.map (Instr.rename f)) m') :
    (∀ side, resting m' side = (resting m side).map (Order.rename f)) ∧
    pending m' = (pending m).map (Event.rename f) ∧ m'.queue.header.seqNum = m.queue.header.seqNum :=
  C66_only_what_is_asked (fun i _ => hf.keeps i) h h'

/-- C66: and every further instruction, renamed, succeeds with the same summary or fails likewise. -/
theorem C66_same_answer {D : Type} [CallbackInfo D] {f : C → D} (hf : Renames f) {c is} {m' : Market D}
    (h : ReachBy c is m) (h' : ReachBy c (is.map (Instr.rename f)) m') {i : Instr C} (hi : i.Ok) :
    (∃ s x x', m.exec i = .ok (s, x) ∧ m'.exec (i.rename f) = .ok (s, x')) ∨
    (∃ e e', m.exec i = .error e ∧ m'.exec (i.rename f) = .error e' ∧
      (e = e' ∨ e = .ao .orderNotFound ∧ e' = .panic ∨ e = .panic ∧ e' = .ao .orderNotFound)) :=
  C66_same_answer_if_asked (fun i _ => hf.keeps i) h h' hi (hf.keeps i)

/-- C66: where every order is given with `DecrementTake` nobody is anybody: the callback infos can be replaced in any way,
users merged or split (a market on which everybody is the same user runs as one on which all are different). -/
theorem C66_decrement_take_is_blind {D : Type} [CallbackInfo D] (f : C → D) {c is} {m' : Market D}
    (hd : ∀ q, Instr.newOrder q ∈ is → q.selfTradeBehavior = .decrementTake)
    (h : ReachBy c is m) (h' : ReachBy c (is.map (Instr.rename f)) m') :
    (∀ side, resting m' side = (resting m side).map (Order.rename f)) ∧
    pending m' = (pending m).map (Event.rename f) ∧ m'.queue.header.seqNum = m.queue.header.seqNum := by
  refine C66_only_what_is_asked (fun i hi => ?_) h h'
  cases i with
  | newOrder q => exact .inl (hd q hi)
  | _ => trivial

/-! ### Posting and cancelling -/

/-- C67: an order that was posted can be cancelled at once. The cancellation returns what was posted, and the own side is
as it was before the order (without the order that had to leave, if the side was full); the rest of the market is as the
order left it. -/
theorem C67_post_then_cancel {c is} (h : ReachBy c is m) (hlen : is.length < 2 ^ 63) (hp : (Instr.newOrder p).Ok)
    (he : m.newOrder p = .ok (s, m')) {id : Nat} (hid : s.postedOrderId = some id) :
    ∃ m'', m'.cancelOrder id =
        .ok (⟨none, s.totalBaseQtyPosted, s.totalBaseQtyPosted * p.limitPrice / 2 ^ 32, 0⟩, m'') ∧
      resting m'' p.side = (resting m p.side).take (c.cap p.side - 1) ∧
      resting m'' p.side.opposite = resting m' p.side.opposite ∧ pending m'' = pending m' := by
  have hm' : ReachBy c (is ++ [.newOrder p]) m' := by
    have := h.step (i := .newOrder p) hp
    rwa [show m.step (.newOrder p) = m' by unfold Market.step Market.exec; simp only [he]; rfl] at this
  obtain ⟨hpr, _⟩ := C15_posted_order h hp he hid
  obtain ⟨a, a', n, r, ex, v, _, _, hcap, _⟩ := h.view hp he
  rcases v.post with ⟨hc, _⟩ | ⟨hc, _⟩ | ⟨kept, ev, hc, _⟩
  · rw [hc.sum] at hid; cases hid
  · rw [hc.sum] at hid; cases hid
  have hs := hc.sum
  subst hs
  cases hid
  have hown := v.rest' p.side
  rw [hc.own] at hown
  have hlen' : (is ++ [Instr.newOrder p]).length ≤ 2 ^ 63 := by simp; omega
  obtain ⟨m'', g1, g2, g3, g4⟩ := C21_cancel hm' hlen' hown
  refine ⟨m'', ?_, ?_, g3, g4⟩
  · rw [g1]
    have hpr : (⟨mkOrderId p.side p.limitPrice a.seq, min (affordable r.quote p.limitPrice) r.base,
      p.callbackInfo⟩ : Order C).price = p.limitPrice := mkOrderId_price (by have := v.known.inv.seq; omega)
    rw [hpr]
  · rw [g2, List.takeWhile_append_dropWhile, v.rest, ← hcap]
    have hl := v.known.inv.len p.side
    rcases hc.evict with ⟨_, h1, h2⟩ | ⟨w, _, h1, h2, _⟩
    · rw [h1, List.take_of_length_le (by omega)]
    · rw [h1] at h2 hl ⊢
      rw [List.length_append, List.length_singleton] at h2 hl
      rw [show a.cap p.side - 1 = kept.length by omega, List.take_left]

/-! ### Concrete cases -/

/-- A sale after the purchase of the demo. -/
def demoSell : NewOrderParams DemoCb := demoOrder .ask 8 8 9

/-- The same orders without cranking on a queue of twelve events, and with cranking on a queue of seven. -/
def plainHist : List (Instr DemoCb) := demoHist ++ [.newOrder demoTake, .newOrder demoSell]
def crankHist : List (Instr DemoCb) :=
  .consumeEvents 1 :: demoHist ++ [.newOrder demoTake, .consumeEvents 4, .newOrder demoSell, .consumeEvents 2]
def smallCfg : Config := { demoCfg with capEvents := 7 }

theorem plain_neverFull : NeverFull (demoCfg.market ⟨0, 0⟩) plainHist := by
  refine ⟨?_, ?_, ?_, ?_, ?_, ?_, ?_, ?_, trivial⟩ <;> decide +kernel
theorem crank_neverFull : NeverFull (smallCfg.market ⟨0, 0⟩) crankHist := by
  refine ⟨?_, ?_, ?_, ?_, ?_, ?_, ?_, ?_, ?_, ?_, ?_, trivial⟩ <;> decide +kernel

theorem small_valid : smallCfg.Valid := by
  refine ⟨?_, ?_, ?_, ?_, ?_⟩ <;> decide

/-- `C64_crank_has_no_influence` -/
example := C64_crank_has_no_influence demo_valid small_valid (by decide +kernel) (by decide +kernel)
  (⟨rfl, rfl, rfl, rfl⟩ : SameRules demoCfg smallCfg) (by decide +kernel) plain_neverFull crank_neverFull

/-- There were nine events, and the second history would not have been possible without the crank. -/
example : (runLog (demoCfg.market ⟨0, 0⟩) plainHist).events.length = 9 ∧
    ((smallCfg.market ⟨0, 0⟩).run (demoHist ++ [.newOrder demoTake])).exec (.newOrder demoSell) =
      .error (.ao .eventQueueFull) := by
  constructor <;> decide +kernel

/-- `C65_parts_give_the_whole`: the purchase of the demo in two parts, one round and nine rounds. -/
example := C65_whole_gives_the_parts demo_reachBy demoTake_ok (n1 := 1) (n2 := 9) rfl (.inl (by decide)) demo_take

theorem demo_first : demo.newOrder (demoTake.first 1) = .ok (⟨none, 5, 50, 0⟩, demo.step (.newOrder (demoTake.first 1))) := by
  decide +kernel
theorem demo_second : (demo.step (.newOrder (demoTake.first 1))).newOrder (demoTake.second 9 ⟨none, 5, 50, 0⟩) =
    .ok (⟨some (11 * 2 ^ 96 + (2 ^ 64 - 1 - 6)), 9, 99, 3⟩,
      (demo.step (.newOrder (demoTake.first 1))).step (.newOrder (demoTake.second 9 ⟨none, 5, 50, 0⟩))) := by
  decide +kernel

example := C65_parts_give_the_whole demo_reachBy demoTake_ok (n1 := 1) (n2 := 9) rfl (.inl (by decide)) demo_first demo_second

example : (OrderSummary.mk none 5 50 0).plus ⟨some (11 * 2 ^ 96 + (2 ^ 64 - 1 - 6)), 9, 99, 3⟩ = demoSum := by decide

theorem demo_only_take : ∃ s, demo.newOrder { demoTake with postAllowed := false } =
    .ok (s, demo.step (.newOrder { demoTake with postAllowed := false })) := ⟨⟨none, 11, 116, 0⟩, by decide +kernel⟩

/-- `C65_limit_prefix`: two rounds out of three. -/
example := C65_limit_prefix demo_reachBy (p := { demoTake with postAllowed := false }) demoTake_ok (n := 2) (by decide) rfl
  demo_only_take.choose_spec

/-- `C66_names_do_not_matter`: every user gets another number, and the tags are changed too. -/
def otherName (x : DemoCb) : DemoCb := ⟨1000 + 3 * x.user, x.tag * x.tag⟩

theorem otherName_renames : Renames otherName := by
  intro x y
  show 1000 + 3 * x.user = 1000 + 3 * y.user ↔ x.user = y.user
  omega

theorem other_reachBy : ReachBy demoCfg (demoHist.map (Instr.rename otherName))
    ((demoCfg.market ⟨0, 0⟩).run (demoHist.map (Instr.rename otherName))) :=
  ⟨demo_valid, by decide +kernel, ⟨0, 0⟩, rfl⟩

example := C66_names_do_not_matter otherName_renames demo_reachBy other_reachBy
example := C66_same_answer otherName_renames demo_reachBy other_reachBy demoTake_ok

/-- The history of the demo and its purchase, all with `DecrementTake`. -/
def blindHist : List (Instr DemoCb) :=
  (demoHist ++ [Instr.newOrder demoTake]).map fun
    | .newOrder q => Instr.newOrder { q with selfTradeBehavior := .decrementTake }
    | i => i

theorem ran_reachBy (is : List (Instr DemoCb)) (h : ∀ i ∈ is, i.Ok) : ReachBy demoCfg is ((demoCfg.market ⟨0, 0⟩).run is) :=
  ⟨demo_valid, h, ⟨0, 0⟩, rfl⟩

theorem blind_reachBy : ReachBy demoCfg blindHist ((demoCfg.market ⟨0, 0⟩).run blindHist) :=
  ran_reachBy _ (by decide +kernel)

/-- Everybody becomes user 7. -/
def allOne (x : DemoCb) : DemoCb := ⟨7, x.tag⟩

theorem blind_decrementTake : ∀ q, Instr.newOrder q ∈ blindHist → q.selfTradeBehavior = .decrementTake := by
  intro q hq
  obtain ⟨i, _, hi⟩ := List.mem_map.1 hq
  cases i <;> cases hi
  rfl

/-- `C66_decrement_take_is_blind`: all users of the demo become the same user, and the trades stay as they are. -/
example := C66_decrement_take_is_blind allOne blind_decrementTake blind_reachBy (ran_reachBy _ (by decide +kernel))

/-- Without `DecrementTake` merging users does make a difference: the purchase of the demo would meet only its own orders. -/
example : pending ((demoCfg.market ⟨0, 0⟩).run ((demoHist ++ [Instr.newOrder demoTake]).map (Instr.rename allOne))) ≠
    (pending ((demoCfg.market ⟨0, 0⟩).run (demoHist ++ [Instr.newOrder demoTake]))).map (Event.rename allOne) := by
  decide +kernel

/-- `C66_only_what_is_asked`, `C66_same_answer_if_asked`: users 1, 2, 4, 5 and 6 become one, user 3, who does ask, stays. -/
def twoUsers (x : DemoCb) : DemoCb := ⟨if x.user = 3 then 3 else 7, x.tag⟩

theorem two_keeps : (Instr.newOrder demoTake).Keeps twoUsers := by
  right
  intro y
  show (3 = if y.user = 3 then 3 else 7) ↔ 3 = y.user
  split <;> omega

example := C66_same_answer_if_asked (f := twoUsers) (is := blindHist.take 6)
  (fun i hi => by
    cases i with
    | newOrder q => exact .inl (blind_decrementTake q (List.mem_of_mem_take hi))
    | _ => trivial)
  (ran_reachBy _ (by decide +kernel)) (ran_reachBy _ (by decide +kernel)) demoTake_ok two_keeps

/-- `C67_post_then_cancel`: the bid posted by the purchase of the demo, which had evicted another bid, is cancelled. -/
example := C67_post_then_cancel demo_reachBy (by decide) demoTake_ok demo_take (id := 11 * 2 ^ 96 + (2 ^ 64 - 1 - 6)) rfl

/-- `C64_queue_irrelevant`: the purchase of the demo, on the demo and on the same market with a queue of 99 events after
a `consume_events`. -/
example := C64_queue_irrelevant (c2 := { demoCfg with capEvents := 99 }) (is2 := demoHist ++ [.consumeEvents 3])
  (m2 := (({ demoCfg with capEvents := 99 } : Config).market ⟨0, 0⟩).run (demoHist ++ [.consumeEvents 3])) demo_reachBy
  ⟨by refine ⟨?_, ?_, ?_, ?_, ?_⟩ <;> decide, by decide +kernel, ⟨0, 0⟩, rfl⟩ ⟨rfl, rfl, rfl, rfl⟩
  ⟨by decide +kernel, by decide +kernel, by decide +kernel⟩ demoTake_ok rfl (by decide +kernel) (by decide +kernel)

/-- `C66_only_what_is_asked`: the history with `DecrementTake`, and then user 3 takes with `CancelProvide`. -/
example := C66_only_what_is_asked (f := twoUsers) (is := blindHist.take 6 ++ [.newOrder demoTake])
  (fun i hi => by
    rcases List.mem_append.1 hi with hi | hi
    · cases i with
      | newOrder q => exact .inl (blind_decrementTake q (List.mem_of_mem_take hi))
      | _ => trivial
    · rw [List.mem_singleton.1 hi]; exact two_keeps)
  (ran_reachBy _ (by decide +kernel)) (ran_reachBy _ (by decide +kernel))

end AOB
