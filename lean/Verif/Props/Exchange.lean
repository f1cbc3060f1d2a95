import Verif.Props.Commute
import Verif.Props.Room
import Verif.Props.Economy
/-
C104: takers of opposite sides do not notice each other.
-/
namespace AOB
variable {C : Type} [CallbackInfo C] {m m₁ m₂ : Market C} {p q : NewOrderParams C} {s t : OrderSummary}

theorem taker_iff {a a' : RefMarket C} (hpa : p.postAllowed = false) : a.newOrder p = .ok (s, a') ↔
    (a.tick ≠ 0 ∧ p.limitPrice % a.tick = 0) ∧ ∃ r, refMatch p a.minBase p.matchLimit (a.capEvents - a.events.length)
        (a.orders p.side.opposite) p.maxBaseQty p.maxQuoteQty true = .ok r ∧
      s = ⟨none, p.maxBaseQty - r.base, p.maxQuoteQty - r.quote, 0⟩ ∧ a' = a.matched p.side r := by
  rw [newOrder_eq]
  by_cases h1 : a.tick = 0
  · simp [h1]
  rw [if_neg h1]
  by_cases h2 : p.limitPrice % a.tick = 0
  · rw [if_neg (by simp [h2, hpa])]
    cases h3 : refMatch p a.minBase p.matchLimit (a.capEvents - a.events.length) (a.orders p.side.opposite)
        p.maxBaseQty p.maxQuoteQty true with
    | error e => simp
    | ok r =>
      have : a.finish p r = .ok (⟨none, p.maxBaseQty - r.base, p.maxQuoteQty - r.quote, 0⟩, a.matched p.side r) := by
        unfold RefMarket.finish
        simp [hpa, RefMarket.matched]
      simp only [this, Except.ok.injEq, Prod.mk.injEq]
      constructor
      · rintro ⟨rfl, rfl⟩; exact ⟨⟨h1, h2⟩, r, rfl, rfl, rfl⟩
      · rintro ⟨_, _, rfl, rfl, rfl⟩; exact ⟨rfl, rfl⟩
  · rw [if_pos (.inl h2)]
    simp [h2]

theorem refMatch_other_room {mb n r1 r2 : Nat} {opp : List (Order C)} {b c : Nat} {cr : Bool} {r : MatchOut C}
    (h : refMatch p mb n r1 opp b c cr = .ok r) (hr : r.events.length ≤ r2) : refMatch p mb n r2 opp b c cr = .ok r := by
  rw [← h]
  refine refMatch_room _ _ _ _ _ _ _ (fun he => ?_) (by rw [h]; simp)
  have := refMatch_full _ _ _ _ _ _ _ he h
  omega

/-- C104. Of two orders of opposite sides that may only take, each is answered, and trades, as if the other were not there:
one after the other succeed exactly in one order as in the other, with the same answers and the same events each, and the
same orders rest afterwards. -/
theorem C104_takers (h : Reachable m) (hp : (Instr.newOrder p).Ok) (hq : (Instr.newOrder q).Ok)
    (hpa : p.postAllowed = false) (hqa : q.postAllowed = false) (hs : q.side = p.side.opposite)
    (e₁ : m.newOrder p = .ok (s, m₁)) (e₂ : m₁.newOrder q = .ok (t, m₂)) :
    ∃ n₁ n₂, m.newOrder q = .ok (t, n₁) ∧ n₁.newOrder p = .ok (s, n₂) ∧
      emitted m n₁ = emitted m₁ m₂ ∧ emitted n₁ n₂ = emitted m m₁ ∧
      (∀ side, resting n₂ side = resting m₂ side) ∧ n₂.queue.header.seqNum = m₂.queue.header.seqNum ∧
      pending m₂ = pending m ++ (emitted m m₁ ++ emitted m₁ m₂) ∧ pending n₂ = pending m ++ (emitted m₁ m₂ ++ emitted m m₁) := by
  obtain ⟨a, ha⟩ := h.known
  obtain ⟨a1, f1, k1⟩ := ha.newOrder_ok hp e₁
  obtain ⟨a2, f2, k2⟩ := k1.newOrder_ok hq e₂
  obtain ⟨t1, r, g1, rfl, rfl⟩ := (taker_iff hpa).1 f1
  obtain ⟨t2, r', g2, rfl, rfl⟩ := (taker_iff hqa).1 f2
  have l1 := refMatch_fits _ _ _ _ _ _ g1
  have l2 := refMatch_fits _ _ _ _ _ _ g2
  have hev : (a.matched p.side r).events = a.events ++ r.events := rfl
  have hev' : (a.matched q.side r').events = a.events ++ r'.events := rfl
  have hce : ∀ (side : Side) (r : MatchOut C), (a.matched side r).capEvents = a.capEvents ∧ (a.matched side r).minBase = a.minBase ∧
      (a.matched side r).tick = a.tick ∧ (a.matched side r).seq = a.seq := by
    intro side r; cases side <;> exact ⟨rfl, rfl, rfl, rfl⟩
  have ho1 : (a.matched p.side r).orders q.side.opposite = a.orders q.side.opposite := by
    rw [hs]; cases p.side <;> rfl
  have ho2 : (a.matched q.side r').orders p.side.opposite = a.orders p.side.opposite := by
    rw [hs]; cases p.side <;> rfl
  rw [hev, (hce _ _).1, List.length_append] at l2
  rw [hev, (hce _ _).1, (hce _ _).2.1, ho1] at g2
  have x1 : a.newOrder q = .ok (⟨none, q.maxBaseQty - r'.base, q.maxQuoteQty - r'.quote, 0⟩, a.matched q.side r') :=
    (taker_iff hqa).2 ⟨by rw [(hce _ _).2.2.1] at t2; exact t2, r', refMatch_other_room g2 (by omega), rfl, rfl⟩
  have x2 : (a.matched q.side r').newOrder p = .ok (⟨none, p.maxBaseQty - r.base, p.maxQuoteQty - r.quote, 0⟩,
      (a.matched q.side r').matched p.side r) := by
    refine (taker_iff hpa).2 ⟨by rw [(hce _ _).2.2.1]; exact t1, r, ?_, rfl, rfl⟩
    rw [(hce _ _).1, (hce _ _).2.1, ho2, hev', List.length_append]
    exact refMatch_other_room g1 (by omega)
  have hr1 := newOrder_refines ha.rep ha.inv q hq
  rw [x1] at hr1
  obtain ⟨n₁, y1, z1⟩ := hr1
  obtain ⟨b1, w1, kn1⟩ := ha.newOrder_ok hq y1
  rw [x1] at w1
  cases w1
  have hr2 := newOrder_refines kn1.rep kn1.inv p hp
  rw [x2] at hr2
  obtain ⟨n₂, y2, z2⟩ := hr2
  have p0 := ha.rep.pending
  have p1 := k1.rep.pending
  have p2 := k2.rep.pending
  have q1 := kn1.rep.pending
  have q2 := z2.pending
  rw [hev] at p1
  rw [hev'] at q1
  have p2' : pending m₂ = a.events ++ r.events ++ r'.events := p2
  have q2' : pending n₂ = a.events ++ r'.events ++ r.events := q2
  have em : ∀ {x y : Market C} {l : List (Event C)}, pending y = pending x ++ l → emitted x y = l := by
    intro x y l h; unfold emitted; rw [h]; simp
  have em1 : emitted m m₁ = r.events := em (by rw [p0, p1])
  have em2 : emitted m₁ m₂ = r'.events := em (by rw [p1, p2'])
  have em3 : emitted m n₁ = r'.events := em (by rw [p0, q1])
  have em4 : emitted n₁ n₂ = r.events := em (by rw [q1, q2'])
  refine ⟨n₁, n₂, y1, y2, by rw [em2, em3], by rw [em1, em4], fun side => ?_, ?_, ?_, ?_⟩
  · rw [z2.resting, k2.rep.resting, hs]
    cases p.side <;> cases side <;> rfl
  · rw [z2.seq, k2.rep.seq, hs]
    cases p.side <;> rfl
  · rw [em1, em2, p0, p2', List.append_assoc]
  · rw [em1, em2, p0, q2', List.append_assoc]

/-! ### Concrete cases -/

/-- User 9 buys 8, user 7 sells 5. -/
theorem demo_cross_buy : demo.newOrder (demoOnly .bid 8 11 9) =
    .ok (⟨none, 8, 80, 0⟩, demo.step (.newOrder (demoOnly .bid 8 11 9))) := by decide +kernel
theorem demo_cross_sell : (demo.step (.newOrder (demoOnly .bid 8 11 9))).newOrder (demoOnly .ask 5 8 7) =
    .ok (⟨none, 5, 45, 0⟩, demo.run [.newOrder (demoOnly .bid 8 11 9), .newOrder (demoOnly .ask 5 8 7)]) := by decide +kernel

example := C104_takers demo_reachable (by decide) (by decide) rfl rfl rfl demo_cross_buy demo_cross_sell

/-- C104 needs that neither order can be posted: user 9 buys at 8 what user 7 could not sell and posted there,
if user 7 comes first, and at 10 otherwise. -/
theorem C104_posting_witness :
    let buy := demoOnly .bid 5 11 9
    let sell := demoOrder .ask 20 8 7
    (demo.newOrder buy).map (fun x => x.1) = .ok ⟨none, 5, 50, 0⟩ ∧
    ((demo.step (.newOrder sell)).newOrder buy).map (fun x => x.1) = .ok ⟨none, 5, 40, 0⟩ := by
  decide +kernel

end AOB
