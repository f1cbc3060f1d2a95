import Verif.Proofs.Best
import Verif.Props.Matching
/-
C85: best execution. No other way of taking the same quantity from the resting orders is better for the taker.
-/
namespace AOB
variable {C : Type} [CallbackInfo C] {m m' : Market C} {p : NewOrderParams C} {s : OrderSummary}

/-- The fills of a new order are those of a matching. -/
theorem best_view (h : Reachable m) (hp : (Instr.newOrder p).Ok) (he : m.newOrder p = .ok (s, m')) :
    ∃ minBase n es opp' b' q', 0 < minBase ∧
      Steps p minBase n (resting m p.side.opposite) p.maxBaseQty p.maxQuoteQty es opp' b' q' ∧
      ((resting m p.side.opposite).map Order.id).Nodup ∧ Ordered p.side (resting m p.side.opposite) ∧
      (∀ o ∈ resting m p.side.opposite, 0 < o.price) ∧ fills (emitted m m') = fills es ∧
      (∀ o, traded (emitted m m') o = traded es o) := by
  obtain ⟨a, a', n, r, ex, v⟩ := h.view hp he
  have hex : ∀ e ∈ ex, e.isFill = false := by
    intro e he
    obtain ⟨w, _, rfl⟩ := v.ex_own e he
    rfl
  refine ⟨a.minBase, n, r.events, r.opp, r.base, r.quote, v.known.minBase, ?_, ?_, ?_, ?_, ?_, ?_⟩
  · rw [v.rest]; exact v.ok.steps
  · rw [v.rest]; exact v.known.inv.nodup p.side.opposite
  · have := C02_rank_is_price h p.side.opposite
    unfold Ordered
    refine this.imp ?_
    intro x y hxy
    cases hs : p.side <;> rw [hs] at hxy <;> exact hxy
  · intro o ho
    rw [v.rest] at ho
    exact (v.known.inv.ok _ o ho).price_pos
  · rw [v.em, fills_append]
    have : fills ex = [] := by
      unfold fills
      exact List.filter_eq_nil_iff.2 (fun e he => by simp [hex e he])
    rw [this, List.append_nil]
  · intro o
    unfold traded
    rw [v.em]
    have : fillsOf o.id (r.events ++ ex) = fillsOf o.id r.events := by
      unfold fillsOf
      have : ex.filter (fun e => e.isFill && e.id == o.id) = [] :=
        List.filter_eq_nil_iff.2 (fun e he => by simp [hex e he])
      rw [List.filter_append, this, List.append_nil]
    rw [this]

/-- C85: what a new order trades is a way of taking from the resting orders of the other side, and in all what its fills
say. -/
theorem C85_fills_allocate (h : Reachable m) (hp : (Instr.newOrder p).Ok) (he : m.newOrder p = .ok (s, m')) :
    Allocation p (resting m p.side.opposite) (traded (emitted m m')) ∧
      amount (resting m p.side.opposite) (traded (emitted m m')) = sumBase (fills (emitted m m')) := by
  obtain ⟨_, _, es, _, _, _, _, hst, hnd, _, _, hfi, htr⟩ := best_view h hp he
  obtain ⟨h1, h2, h3⟩ := hst.traded_le hnd
  have : traded (emitted m m') = traded es := funext htr
  rw [this, hfi]
  exact ⟨⟨h1, fun hb o ho hc => h2 o ho ⟨hb, hc⟩⟩, h3⟩

/-- C85, rounding: what a new order pays or receives for its fills is the exact value of what it takes, with at most one
quote unit less one step per fill in favour of the makers. -/
theorem C85_rounding (h : Reachable m) (hp : (Instr.newOrder p).Ok) (he : m.newOrder p = .ok (s, m')) :
    let exact := bill (resting m p.side.opposite) (traded (emitted m m'))
    let quote := sumQuote (fills (emitted m m')) * 2 ^ 32
    let slack := (fills (emitted m m')).length * (2 ^ 32 - 1)
    match p.side with
    | .bid => exact ≤ quote ∧ quote ≤ exact + slack
    | .ask => quote ≤ exact ∧ exact ≤ quote + slack := by
  obtain ⟨_, _, es, _, _, _, _, hst, hnd, _, _, hfi, htr⟩ := best_view h hp he
  have h1 := hst.bill hnd rfl
  have : traded (emitted m m') = traded es := funext htr
  rw [this, hfi]
  cases hs : p.side <;> rw [hs] at h1 <;> exact ⟨h1.2, h1.1⟩

/-- C85: a buyer could not have got as much base for less from the resting asks, whatever quantities it took from whichever
of them. -/
theorem C85_buyer (h : Reachable m) (hp : (Instr.newOrder p).Ok) (he : m.newOrder p = .ok (s, m')) (hs : p.side = .bid)
    {f : Order C → Nat} (hf : Allocation p (resting m .ask) f)
    (ham : sumBase (fills (emitted m m')) ≤ amount (resting m .ask) f) :
    bill (resting m .ask) (traded (emitted m m')) ≤ bill (resting m .ask) f ∧
      sumQuote (fills (emitted m m')) * 2 ^ 32 ≤
        bill (resting m .ask) f + (fills (emitted m m')).length * (2 ^ 32 - 1) := by
  have ho : p.side.opposite = .ask := by rw [hs]; rfl
  have h2 := C85_rounding h hp he
  obtain ⟨minBase, _, es, _, _, _, hmin, hst, hnd, hord, hpos, hfi, htr⟩ := best_view h hp he
  obtain ⟨-, -, h3⟩ := hst.traded_le hnd
  have ht : traded (emitted m m') = traded es := funext htr
  rw [hfi, ← h3, ho] at ham
  have h1 := hst.best hnd hord (fun ha => by rw [hs] at ha; cases ha) hpos hmin f (by rw [ho]; exact hf.le)
    (fun o hm hso => hf.own hso.1 o (ho ▸ hm) hso.2) 0
    (amount (resting m .ask) f - amount (resting m .ask) (traded es)) (by intro o _; rw [hs]; exact Nat.zero_le _)
    (by rw [ho]; omega)
  rw [hs] at h1 h2
  simp only [Side.opposite] at h1 h2
  rw [← ht] at h1
  constructor <;> omega

/-- C85: a seller whose quote cap covers the order at the prices of all resting bids could not have got more for the same
base from the resting bids. -/
theorem C85_seller (h : Reachable m) (hp : (Instr.newOrder p).Ok) (he : m.newOrder p = .ok (s, m')) (hs : p.side = .ask)
    (hcap : ∀ o ∈ resting m .bid, p.maxBaseQty * o.price ≤ p.maxQuoteQty * 2 ^ 32)
    {f : Order C → Nat} (hf : Allocation p (resting m .bid) f)
    (ham : amount (resting m .bid) f = sumBase (fills (emitted m m'))) :
    bill (resting m .bid) f ≤ bill (resting m .bid) (traded (emitted m m')) ∧
      bill (resting m .bid) f ≤
        sumQuote (fills (emitted m m')) * 2 ^ 32 + (fills (emitted m m')).length * (2 ^ 32 - 1) := by
  have ho : p.side.opposite = .bid := by rw [hs]; rfl
  have h2 := C85_rounding h hp he
  obtain ⟨minBase, _, es, _, _, _, hmin, hst, hnd, hord, hpos, hfi, htr⟩ := best_view h hp he
  obtain ⟨-, -, h3⟩ := hst.traded_le hnd
  have ht : traded (emitted m m') = traded es := funext htr
  rw [hfi, ← h3, ho] at ham
  have h1 := hst.best hnd hord (fun _ => by rw [ho]; exact hcap) hpos hmin f (by rw [ho]; exact hf.le)
    (fun o hm hso => hf.own hso.1 o (ho ▸ hm) hso.2) (amount ((resting m .bid)) Order.price) 0 (by
      intro o hm
      rw [hs]
      rw [ho] at hm
      exact le_amount Order.price hm) (by rw [ho]; exact ham)
  rw [hs] at h1 h2
  simp only [Side.opposite] at h1 h2
  rw [← ht] at h1
  constructor <;> omega

/-! ### Concrete cases -/

/-- User 3 buys 11 at no more than 11: 5 at price 10 from user 1, 6 at price 11 from user 2; their own ask of 7 at price 10
does not count. -/
theorem demo_best_buy : demo.newOrder (demoOrder .bid 11 11 3) =
    .ok (⟨none, 11, 116, 0⟩, demo.step (.newOrder (demoOrder .bid 11 11 3))) := by decide +kernel

example := C85_fills_allocate demo_reachable (p := demoOrder .bid 11 11 3) (by decide) demo_best_buy

instance (p : NewOrderParams DemoCb) (opp : List (Order DemoCb)) (f : Order DemoCb → Nat) :
    Decidable (Allocation p opp f) :=
  decidable_of_iff ((∀ o ∈ opp, f o ≤ o.qty) ∧ (p.selfTradeBehavior ≠ .decrementTake → ∀ o ∈ opp,
    p.callbackInfo.user = o.cb.user → f o = 0)) ⟨fun h => ⟨h.1, h.2⟩, fun h => ⟨h.1, h.2⟩⟩

/-- User 9 buys 8 (5 and 3 at price 10); they could have taken 4 at price 10 from user 3 and 4 at price 11. -/
theorem demo_best_buy8 : demo.newOrder (demoOrder .bid 8 11 9) =
    .ok (⟨none, 8, 80, 0⟩, demo.step (.newOrder (demoOrder .bid 8 11 9))) := by decide +kernel

def demoOther (o : Order DemoCb) : Nat := if o.cb.user = 1 then 0 else 4

example := C85_buyer demo_reachable (p := demoOrder .bid 8 11 9) (by decide) demo_best_buy8 rfl (f := demoOther)
  (by decide +kernel) (by decide +kernel)
example : bill (resting demo .ask) demoOther = 84 * 2 ^ 32 ∧
    bill (resting demo .ask) (traded (emitted demo (demo.step (.newOrder (demoOrder .bid 8 11 9))))) = 80 * 2 ^ 32 := by
  decide +kernel

theorem demo_best_sell : demo.newOrder (demoOrder .ask 8 8 9) =
    .ok (⟨none, 8, 72, 0⟩, demo.step (.newOrder (demoOrder .ask 8 8 9))) := by decide +kernel

/-- They could have sold 6 at price 9 and 2 at price 8. -/
def demoOtherBids (o : Order DemoCb) : Nat := if o.cb.user = 4 then 3 else if o.cb.user = 5 then 2 else 3

example := C85_seller demo_reachable (p := demoOrder .ask 8 8 9) (by decide) demo_best_sell rfl (by decide +kernel)
  (f := demoOtherBids) (by decide +kernel) (by decide +kernel)

/-- C85: a seller whose quote cap binds may be executed badly: it sells 1 at price 8 and 1 at price 5, each time as much as
the cap still covers, the rest of these bids is given up as dust, and the third unit goes at price 1; 3 units at price 5
would have been within the cap of 15. -/
theorem C85_seller_cap_witness :
    let m := (({ minBase := 3, tick := 2 ^ 32, capBids := 3, capAsks := 3, capEvents := 12 } : Config).market ⟨0, 0⟩).run
      [.newOrder (demoOrder .bid 3 8 1), .newOrder (demoOrder .bid 3 5 2), .newOrder (demoOrder .bid 3 1 4)]
    let p := { demoOrder .ask 3 1 9 with maxQuoteQty := 15 }
    let f := fun o : Order DemoCb => if o.cb.user = 2 then 3 else 0
    let m' := m.step (.newOrder p)
    m.newOrder p = .ok (⟨none, 3, 14, 0⟩, m') ∧ Allocation p (resting m .bid) f ∧
      amount (resting m .bid) f = sumBase (fills (emitted m m')) ∧ bill (resting m .bid) f = 15 * 2 ^ 32 ∧
      bill (resting m .bid) (traded (emitted m m')) = 14 * 2 ^ 32 := by
  decide +kernel

example := C85_rounding demo_reachable (p := demoOrder .bid 11 11 3) (by decide) demo_best_buy

end AOB
