import Verif.Proofs.Relate
import Verif.Spec.Units
/-
The reference engine with the quote currency counted in another unit.
-/
namespace AOB
variable {C : Type} {k : Nat}

theorem idTimes_price (k id : Nat) : idTimes k id / 2 ^ 64 = id / 2 ^ 64 * k := by
  unfold idTimes
  rw [Nat.add_comm, Nat.add_mul_div_right _ _ (Nat.two_pow_pos _), Nat.div_eq_of_lt (Nat.mod_lt _ (Nat.two_pow_pos _)), Nat.zero_add]

theorem idTimes_low (k id : Nat) : idTimes k id % 2 ^ 64 = id % 2 ^ 64 := by
  unfold idTimes
  rw [Nat.add_comm, Nat.add_mul_mod_self_right, Nat.mod_mod]

theorem idTimes_inj (hk : 0 < k) {a b : Nat} : idTimes k a = idTimes k b ↔ a = b := by
  refine ⟨fun h => ?_, fun h => by rw [h]⟩
  have h1 : a / 2 ^ 64 * k = b / 2 ^ 64 * k := by rw [← idTimes_price, ← idTimes_price, h]
  have h2 : a % 2 ^ 64 = b % 2 ^ 64 := by rw [← idTimes_low k a, ← idTimes_low k b, h]
  have h3 := Nat.eq_of_mul_eq_mul_right hk h1
  rw [← Nat.div_add_mod a (2 ^ 64), ← Nat.div_add_mod b (2 ^ 64), h3, h2]

theorem idTimes_side (k id : Nat) : sideOfId (idTimes k id) = sideOfId id := by
  unfold sideOfId
  rw [idTimes_low]

theorem mkOrderId_times (k : Nat) (side : Side) (price : Nat) {seq : Nat} (h : seq < 2 ^ 64) :
    mkOrderId side (price * k) seq = idTimes k (mkOrderId side price seq) := by
  have key : ∀ x, x < 2 ^ 64 → price * k * 2 ^ 64 + x = idTimes k (price * 2 ^ 64 + x) := by
    intro x hx
    unfold idTimes
    rw [Nat.add_comm (price * 2 ^ 64), Nat.add_mul_div_right _ _ (Nat.two_pow_pos _), Nat.div_eq_of_lt hx, Nat.zero_add,
      Nat.add_mul_mod_self_right, Nat.mod_eq_of_lt hx]
  cases side
  · exact key _ (by omega)
  · exact key _ h

theorem affordable_times (hk : 0 < k) (q p : Nat) : affordable (q * k) (p * k) = affordable q p := by
  unfold affordable
  rw [Nat.mul_right_comm, Nat.mul_div_mul_right _ _ hk]

theorem worth_times {p : Nat} (hp : 2 ^ 32 ∣ p) (side : Side) (t : Nat) : worth side t (p * k) = worth side t p * k := by
  obtain ⟨n, rfl⟩ := hp
  have e : t * (2 ^ 32 * n * k) = t * n * k * 2 ^ 32 := by ring
  have e' : t * (2 ^ 32 * n) = t * n * 2 ^ 32 := by ring
  cases side <;> simp only [worth, e, e']
  · have key : ∀ x, (x * 2 ^ 32 + (2 ^ 32 - 1)) / 2 ^ 32 = x := fun x => by omega
    rw [key, key]
  · rw [Nat.mul_div_cancel _ (Nat.two_pow_pos _), Nat.mul_div_cancel _ (Nat.two_pow_pos _)]

theorem accepts_times (hk : 0 < k) (side : Side) (l p : Nat) : side.accepts (l * k) (p * k) = side.accepts l p := by
  cases side <;> simp [Side.accepts, Nat.mul_le_mul_right_iff hk]

theorem asGood_times (hk : 0 < k) (side : Side) (a b : Nat) : side.asGood (a * k) (b * k) = side.asGood a b := by
  cases side <;> simp [Side.asGood, Nat.mul_le_mul_right_iff hk]

@[simp] theorem times_price (k : Nat) (o : Order C) : (o.times k).price = o.price * k := idTimes_price k o.id
@[simp] theorem times_id (k : Nat) (o : Order C) : (o.times k).id = idTimes k o.id := rfl
@[simp] theorem times_qty (k : Nat) (o : Order C) : (o.times k).qty = o.qty := rfl
@[simp] theorem times_cb (k : Nat) (o : Order C) : (o.times k).cb = o.cb := rfl

def MatchOut.times (k : Nat) (r : MatchOut C) : MatchOut C :=
  ⟨r.events.map (Event.times k), r.opp.map (Order.times k), r.base, r.quote * k, r.crossed⟩

def PostOut.times (k : Nat) (r : PostOut C) : PostOut C :=
  ⟨r.posted, r.own.map (Order.times k), r.events.map (Event.times k)⟩

def RefMarket.times (k : Nat) (a : RefMarket C) : RefMarket C :=
  { minBase := a.minBase, tick := a.tick * k, capBids := a.capBids, capAsks := a.capAsks, capEvents := a.capEvents,
    seq := a.seq, bids := a.bids.map (Order.times k), asks := a.asks.map (Order.times k),
    events := a.events.map (Event.times k) }

/-- All resting orders have whole prices. -/
def AllWhole (l : List (Order C)) : Prop := ∀ o ∈ l, 2 ^ 32 ∣ o.price

def RefMarket.Whole (a : RefMarket C) : Prop := ∀ side, AllWhole (a.orders side)

theorem emit_times (k : Nat) (es : List (Event C)) (x : Except AoError (MatchOut C)) :
    (x.map (MatchOut.emit es)).map (MatchOut.times k) =
      (x.map (MatchOut.times k)).map (MatchOut.emit (es.map (Event.times k))) := by
  cases x with
  | error e => rfl
  | ok r => simp [Except.map, MatchOut.emit, MatchOut.times]

theorem refMatch_times [CallbackInfo C] (hk : 0 < k) {p : NewOrderParams C} {mb : Nat} :
    ∀ (n room : Nat) (opp : List (Order C)) (b q : Nat) (cr : Bool), AllWhole opp →
    refMatch (p.times k) mb n room (opp.map (Order.times k)) b (q * k) cr =
      (refMatch p mb n room opp b q cr).map (MatchOut.times k)
  | 0, _, _, _, _, _, _ => rfl
  | _ + 1, _, [], _, _, _, _ => rfl
  | n + 1, room, o :: rest, b, q, cr, hw => by
    have ho : 2 ^ 32 ∣ o.price := hw o List.mem_cons_self
    have hr : AllWhole rest := fun x hx => hw x (List.mem_cons_of_mem _ hx)
    simp only [List.map_cons, refMatch, times_price, times_qty, times_cb, times_id]
    have hp : (p.times k).postOnly = p.postOnly := rfl
    have hs : (p.times k).side = p.side := rfl
    have hl : (p.times k).limitPrice = p.limitPrice * k := rfl
    have hb : (p.times k).selfTradeBehavior = p.selfTradeBehavior := rfl
    have hc : (p.times k).callbackInfo = p.callbackInfo := rfl
    rw [hp, hs, hl, hb, hc, accepts_times hk, affordable_times hk, worth_times ho]
    have key : ∀ (es : List (Event C)) (r : Nat) (l : List (Order C)) (b q : Nat), AllWhole l →
        (refMatch (p.times k) mb n r (l.map (Order.times k)) b (q * k) true).map
          (MatchOut.emit (es.map (Event.times k))) =
        ((refMatch p mb n r l b q true).map (MatchOut.emit es)).map (MatchOut.times k) := by
      intro es r l b q hl
      rw [refMatch_times hk n _ _ _ _ _ hl, emit_times]
    by_cases h1 : (p.postOnly || !p.side.accepts p.limitPrice o.price) = true
    · simp only [if_pos h1]; rfl
    have hz : ∀ v, (v * k = 0) ↔ v = 0 := fun v => by rw [Nat.mul_eq_zero]; omega
    simp only [hz]
    by_cases h2 : min (min o.qty b) (affordable q o.price) = 0 ∨
        worth p.side (min (min o.qty b) (affordable q o.price)) o.price = 0
    · simp only [if_neg h1, if_pos h2]; rfl
    simp only [if_neg h1, if_neg h2]
    by_cases h3 : p.selfTradeBehavior ≠ .decrementTake ∧
        CallbackInfo.asCallbackId p.callbackInfo = CallbackInfo.asCallbackId o.cb
    · simp only [if_pos h3]
      by_cases h4 : p.selfTradeBehavior = .abortTransaction
      · simp only [if_pos h4]; rfl
      by_cases h5 : room = 0
      · simp only [if_neg h4, if_pos h5]; rfl
      simp only [if_neg h4, if_neg h5]
      exact key [.out p.side.opposite o.id o.qty o.cb] (room - 1) rest b q hr
    simp only [if_neg h3, ← Nat.sub_mul]
    by_cases h4 : o.qty - min (min o.qty b) (affordable q o.price) < mb
    · simp only [h4, if_true]
      by_cases h5 : room ≤ 1
      · simp only [if_pos h5]; rfl
      simp only [if_neg h5]
      exact key [.fill p.side o.id _ _ o.cb p.callbackInfo, .out p.side.opposite o.id _ o.cb] (room - 2) rest _ _ hr
    · simp only [h4, if_false]
      by_cases h5 : room = 0
      · simp only [if_pos h5]; rfl
      simp only [if_neg h5]
      refine key [.fill p.side o.id _ _ o.cb p.callbackInfo] (room - 1)
        ({ o with qty := o.qty - min (min o.qty b) (affordable q o.price) } :: rest) _ _ ?_
      intro x hx
      rcases List.mem_cons.1 hx with rfl | hx
      · exact ho
      · exact hr x hx

/-- Matching leaves only orders with prices that were there before. -/
theorem refMatch_whole [CallbackInfo C] {p : NewOrderParams C} {mb : Nat} :
    ∀ (n room : Nat) (opp : List (Order C)) (b q : Nat) (cr : Bool) (r : MatchOut C), AllWhole opp →
    refMatch p mb n room opp b q cr = .ok r → AllWhole r.opp
  | 0, _, _, _, _, _, r, hw, h => by cases h; exact hw
  | _ + 1, _, [], _, _, _, r, hw, h => by cases h; exact hw
  | n + 1, room, o :: rest, b, q, cr, r, hw, h => by
    have hr : AllWhole rest := fun x hx => hw x (List.mem_cons_of_mem _ hx)
    have key : ∀ (es : List (Event C)) (room : Nat) (l : List (Order C)) (b q : Nat), AllWhole l →
        (refMatch p mb n room l b q true).map (MatchOut.emit es) = .ok r → AllWhole r.opp := by
      intro es room l b q hl h
      cases hx : refMatch p mb n room l b q true with
      | error e => rw [hx] at h; cases h
      | ok y =>
        rw [hx] at h
        cases h
        exact refMatch_whole n _ _ _ _ _ y hl hx
    simp only [refMatch] at h
    split_ifs at h
    · cases h; exact hw
    · cases h; exact hw
    · exact key _ _ _ _ _ hr h
    · exact key _ _ _ _ _ hr h
    · refine key _ _ _ _ _ ?_ h
      intro x hx
      rcases List.mem_cons.1 hx with rfl | hx
      · exact hw o List.mem_cons_self
      · exact hr x hx

theorem insertOrder_times (hk : 0 < k) (side : Side) (o : Order C) (l : List (Order C)) :
    insertOrder side (o.times k) (l.map (Order.times k)) = (insertOrder side o l).map (Order.times k) := by
  unfold insertOrder
  rw [List.map_append, List.map_cons, List.takeWhile_map, List.dropWhile_map]
  have : (fun x : Order C => side.asGood x.price (o.times k).price) ∘ Order.times k =
      fun x : Order C => side.asGood x.price o.price := by
    funext x
    simp only [Function.comp, times_price, asGood_times hk]
  rw [this]

theorem refPost_times (hk : 0 < k) (side : Side) (cap room : Nat) (own : List (Order C)) (o : Order C) :
    refPost side cap room (own.map (Order.times k)) (o.times k) =
      (refPost side cap room own o).map (PostOut.times k) := by
  unfold refPost
  rw [List.length_map, List.getLast?_map, insertOrder_times hk, ← List.map_dropLast]
  cases own.getLast? with
  | none => simp only [Option.map_none]; split_ifs <;> rfl
  | some w =>
    simp only [Option.map_some, times_price, times_id, times_qty, times_cb, insertOrder_times hk, asGood_times hk]
    split_ifs <;> rfl

theorem refPost_whole {side : Side} {cap room : Nat} {own : List (Order C)} {o : Order C} {po : PostOut C}
    (hw : AllWhole own) (ho : 2 ^ 32 ∣ o.price) (h : refPost side cap room own o = .ok po) : AllWhole po.own := by
  unfold refPost at h
  have key : ∀ l : List (Order C), (∀ x ∈ l, x ∈ own) → AllWhole (insertOrder side o l) := by
    intro l hl x hx
    rcases mem_insertOrder.1 hx with rfl | hx
    · exact ho
    · exact hw x (hl x hx)
  by_cases hl : own.length < cap
  · rw [if_pos hl] at h; cases h; exact key own (fun _ h => h)
  rw [if_neg hl] at h
  cases hg : own.getLast? with
  | none => rw [hg] at h; cases h; exact hw
  | some w =>
    rw [hg] at h
    simp only at h
    split_ifs at h
    · cases h; exact hw
    · cases h; exact key _ (fun x hx => (List.dropLast_prefix own).subset hx)

theorem orders_times (k : Nat) (a : RefMarket C) (side : Side) :
    (a.times k).orders side = (a.orders side).map (Order.times k) := by cases side <;> rfl

theorem finish_times (hk : 0 < k) (a : RefMarket C) (p : NewOrderParams C) (hp : p.postAllowed = true → 2 ^ 32 ∣ p.limitPrice)
    (r : MatchOut C) :
    (a.times k).finish (p.times k) (r.times k) = (a.finish p r).map (fun x => (x.1.times k, x.2.times k)) := by
  obtain ⟨mb, mq, lp, side, ml, cb, po, pa, st⟩ := p
  unfold RefMarket.finish
  simp only [Bool.or_eq_true, decide_eq_true_eq]
  simp only [NewOrderParams.times, MatchOut.times, RefMarket.times, affordable_times hk]
  by_cases hc : (r.crossed = true ∨ (!pa) = true) ∨ min (affordable r.quote lp) r.base < a.minBase
  · simp only [hc, if_true]
    cases side <;> simp [Except.map, RefMarket.setOrders, Side.opposite, OrderSummary.times, Nat.sub_mul]
  simp only [hc, if_false]
  have hpa : pa = true := by
    cases pa
    · exact absurd (.inl (.inr rfl)) hc
    · rfl
  have hwhole := hp hpa
  by_cases hs : a.seq + 1 ≥ 2 ^ 64
  · simp only [hs, if_true]; rfl
  simp only [hs, if_false]
  have hid : mkOrderId side (lp * k) a.seq = idTimes k (mkOrderId side lp a.seq) := mkOrderId_times k side lp (by omega)
  have hr : ∀ (room : Nat) (own : List (Order C)), refPost side (a.cap side) room (own.map (Order.times k))
      ⟨idTimes k (mkOrderId side lp a.seq), min (affordable r.quote lp) r.base, cb⟩ =
      (refPost side (a.cap side) room own
        ⟨mkOrderId side lp a.seq, min (affordable r.quote lp) r.base, cb⟩).map (PostOut.times k) := by
    intro room own
    exact refPost_times hk side (a.cap side) room own ⟨mkOrderId side lp a.seq, min (affordable r.quote lp) r.base, cb⟩
  simp only [worth_times hwhole]
  cases side <;> simp only [RefMarket.setOrders, Side.opposite, RefMarket.orders, RefMarket.cap] at hr hid ⊢
  all_goals
    simp only [← List.map_append, List.length_map, hr, hid]
    generalize refPost _ _ _ _ _ = y
    cases y with
    | error e => rfl
    | ok po =>
      simp only [Except.map, PostOut.times]
      cases po.posted <;> simp [OrderSummary.times, Nat.sub_mul]

theorem newOrder_times [CallbackInfo C] (hk : 0 < k) (a : RefMarket C) (hw : a.Whole)
    {p : NewOrderParams C} (hp : p.postAllowed = true → 2 ^ 32 ∣ p.limitPrice) :
    (a.times k).newOrder (p.times k) = (a.newOrder p).map (fun x => (x.1.times k, x.2.times k)) := by
  rw [newOrder_eq, newOrder_eq]
  show (if a.tick * k = 0 then _ else if p.limitPrice * k % (a.tick * k) ≠ 0 ∨ (p.postAllowed ∧ p.limitPrice * k < a.tick * k)
    then _ else _) = _
  by_cases ht : a.tick = 0
  · rw [if_pos ht, if_pos (by rw [ht, Nat.zero_mul])]; rfl
  rw [if_neg ht, if_neg (Nat.mul_ne_zero ht (by omega)), Nat.mul_mod_mul_right]
  have e1 : p.limitPrice * k < a.tick * k ↔ p.limitPrice < a.tick := Nat.mul_lt_mul_right hk
  have e2 : p.limitPrice % a.tick * k ≠ 0 ↔ p.limitPrice % a.tick ≠ 0 := by rw [Nat.mul_ne_zero_iff]; omega
  by_cases hl : p.limitPrice % a.tick ≠ 0 ∨ (p.postAllowed ∧ p.limitPrice < a.tick)
  · rw [if_pos hl, if_pos (by rw [e1, e2]; exact hl)]; rfl
  rw [if_neg hl, if_neg (by rw [e1, e2]; exact hl)]
  have hm := refMatch_times hk (p := p) (mb := a.minBase) p.matchLimit (a.capEvents - a.events.length)
    (a.orders p.side.opposite) p.maxBaseQty p.maxQuoteQty true (hw _)
  have e : (a.times k).capEvents - (a.times k).events.length = a.capEvents - a.events.length := by
    simp [RefMarket.times]
  have hm' : refMatch (p.times k) (a.times k).minBase (p.times k).matchLimit
      ((a.times k).capEvents - (a.times k).events.length) ((a.times k).orders (p.times k).side.opposite)
      (p.times k).maxBaseQty (p.times k).maxQuoteQty true =
      (refMatch p a.minBase p.matchLimit (a.capEvents - a.events.length) (a.orders p.side.opposite)
        p.maxBaseQty p.maxQuoteQty true).map (MatchOut.times k) := by
    rw [e, orders_times]; exact hm
  rw [hm']
  cases refMatch p a.minBase p.matchLimit (a.capEvents - a.events.length) (a.orders p.side.opposite)
    p.maxBaseQty p.maxQuoteQty true with
  | error e => rfl
  | ok r => exact finish_times hk a p hp r

theorem mkOrderId_div (side : Side) (price : Nat) {seq : Nat} (h : seq < 2 ^ 64) : mkOrderId side price seq / 2 ^ 64 = price := by
  cases side <;> simp only [mkOrderId] <;> omega

theorem newOrder_whole [CallbackInfo C] {a a' : RefMarket C} (hw : a.Whole) {p : NewOrderParams C}
    (hp : p.postAllowed = true → 2 ^ 32 ∣ p.limitPrice) {s : OrderSummary} (h : a.newOrder p = .ok (s, a')) : a'.Whole := by
  rw [newOrder_eq] at h
  split_ifs at h
  cases hx : refMatch p a.minBase p.matchLimit (a.capEvents - a.events.length) (a.orders p.side.opposite)
    p.maxBaseQty p.maxQuoteQty true with
  | error e => rw [hx] at h; cases h
  | ok r =>
    rw [hx] at h
    have hr := refMatch_whole _ _ _ _ _ _ r (hw _) hx
    simp only at h
    unfold RefMarket.finish at h
    simp only [Bool.or_eq_true, decide_eq_true_eq] at h
    have hbase : ∀ side, AllWhole ((a.setOrders p.side.opposite r.opp).orders side) := by
      intro side
      have h1 := hw side
      revert hr h1
      cases p.side <;> cases side <;> intro hr h1 <;> first | exact hr | exact h1
    split_ifs at h with hc hs
    · cases h
      intro side
      have := hbase side
      cases side <;> exact this
    · have hpa : p.postAllowed = true := by
        cases hpa : p.postAllowed
        · rw [hpa] at hc; exact absurd (.inl (.inr rfl)) hc
        · rfl
      split at h
      · cases h
      · rename_i po hpo
        have hown := refPost_whole (by
            have := hbase p.side
            revert this
            cases p.side <;> exact fun h => h) (show 2 ^ 32 ∣ (⟨mkOrderId p.side p.limitPrice a.seq, _, p.callbackInfo⟩ : Order C).price by
              unfold Order.price
              rw [mkOrderId_div _ _ (by omega)]
              exact hp hpa) hpo
        split_ifs at h
        · cases h
          intro side
          have h1 := hbase side
          revert hown h1
          cases p.side <;> cases side <;> intro hown h1 <;> first | exact hown | exact h1
        · cases h
          intro side
          have := hbase side
          cases side <;> exact this

theorem setOrders_times (k : Nat) (a : RefMarket C) (side : Side) (l : List (Order C)) :
    (a.times k).setOrders side (l.map (Order.times k)) = (a.setOrders side l).times k := by cases side <;> rfl

theorem beq_of_inj {φ : Nat → Nat} (h : ∀ a b, φ a = φ b ↔ a = b) (a b : Nat) : (φ a == φ b) = (a == b) := by
  rw [Bool.eq_iff_iff, beq_iff_eq, beq_iff_eq, h]

/-- Finding and removing an order by its id, when the ids are replaced. -/
theorem find_mapId {φ : Nat → Nat} (h : ∀ a b, φ a = φ b ↔ a = b) {g : Order C → Order C} (hg : ∀ o, (g o).id = φ o.id)
    (l : List (Order C)) (id : Nat) :
    (l.map g).find? (fun o => o.id == φ id) = (l.find? (fun o => o.id == id)).map g ∧
    (l.map g).filter (fun o => o.id != φ id) = (l.filter (fun o => o.id != id)).map g := by
  have hc : ((fun o : Order C => o.id == φ id) ∘ g) = fun o : Order C => o.id == id :=
    funext fun o => by rw [Function.comp, hg, beq_of_inj h]
  have hc' : ((fun o : Order C => o.id != φ id) ∘ g) = fun o : Order C => o.id != id :=
    funext fun o => by rw [Function.comp, hg, bne, bne, beq_of_inj h]
  rw [List.find?_map, hc, List.filter_map, hc']
  exact ⟨rfl, rfl⟩

theorem cancel1_of {a : RefMarket C} {id j : Nat} (hs : sideOfId j = sideOfId id)
    (hf : ((a.orders (sideOfId id)).map (Order.times k)).find? (fun o => o.id == j) =
        ((a.orders (sideOfId id)).find? (fun o => o.id == id)).map (Order.times k) ∧
      ((a.orders (sideOfId id)).map (Order.times k)).filter (fun o => o.id != j) =
        ((a.orders (sideOfId id)).filter (fun o => o.id != id)).map (Order.times k)) :
    (a.times k).cancel1 j = (a.cancel1 id).map (fun x => (x.1.times k, x.2.times k)) := by
  unfold RefMarket.cancel1
  rw [hs, orders_times, hf.1, hf.2, setOrders_times]
  generalize (a.orders (sideOfId id)).find? (fun o => o.id == id) = x
  cases x with
  | none => simp only [Option.map_none]
  | some o => simp only [Option.map_some]

theorem cancel1_times (hk : 0 < k) (a : RefMarket C) (id : Nat) :
    (a.times k).cancel1 (idTimes k id) = (a.cancel1 id).map (fun x => (x.1.times k, x.2.times k)) :=
  cancel1_of (idTimes_side k id) (find_mapId (fun _ _ => idTimes_inj hk) (times_id (C := C) k) (a.orders (sideOfId id)) id)

theorem cancel1_whole {a a' : RefMarket C} (hw : a.Whole) {id : Nat} {o : Order C} (h : a.cancel1 id = some (o, a')) :
    2 ^ 32 ∣ o.price ∧ a'.Whole := by
  unfold RefMarket.cancel1 at h
  cases hx : (a.orders (sideOfId id)).find? (fun o => o.id == id) with
  | none => rw [hx] at h; cases h
  | some x =>
    rw [hx] at h
    cases h
    refine ⟨hw _ _ (List.mem_of_find?_eq_some hx), ?_⟩
    intro side
    have h1 := hw side
    have h2 : AllWhole ((a.orders (sideOfId id)).filter (fun o => o.id != id)) :=
      fun y hy => hw _ y (List.mem_of_mem_filter hy)
    revert h2
    cases sideOfId id <;> cases side <;> intro h2 <;> first | exact h2 | exact h1

theorem massCancel_times (hk : 0 < k) : ∀ (ids : List Nat) (b q : Nat) (a : RefMarket C), a.Whole →
    (∀ b' q' a', RefMarket.massCancelFrom ids b q a = .ok (b', q', a') → q ≤ q' ∧ a'.Whole ∧ (q' * k < 2 ^ 64 →
      RefMarket.massCancelFrom (ids.map (idTimes k)) b (q * k) (a.times k) = .ok (b', q' * k, a'.times k))) ∧
    (∀ e, RefMarket.massCancelFrom ids b q a = .error e →
      ∃ e', RefMarket.massCancelFrom (ids.map (idTimes k)) b (q * k) (a.times k) = .error e')
  | [], b, q, a, hw => ⟨fun b' q' a' h => by cases h; exact ⟨le_refl _, hw, fun _ => rfl⟩, fun e h => by cases h⟩
  | id :: ids, b, q, a, hw => by
    simp only [List.map_cons, RefMarket.massCancelFrom, cancel1_times hk]
    cases hx : a.cancel1 id with
    | none => exact ⟨fun b' q' a' h => (by cases h), fun e _ => ⟨_, rfl⟩⟩
    | some x =>
      obtain ⟨o, a1⟩ := x
      obtain ⟨ho, hw1⟩ := cancel1_whole hw hx
      simp only [Option.map_some, times_qty, times_price, worth_times ho, ← Nat.add_mul]
      obtain ⟨ih1, ih2⟩ := massCancel_times hk ids (b + o.qty) (worth .ask o.qty o.price + q) a1 hw1
      by_cases h : b + o.qty < 2 ^ 64 ∧ worth .ask o.qty o.price + q < 2 ^ 64
      · simp only [h, and_self, if_true]
        refine ⟨fun b' q' a' he => ?_, fun e he => ?_⟩
        · obtain ⟨g1, g2, g3⟩ := ih1 b' q' a' he
          refine ⟨by omega, g2, fun hq => ?_⟩
          rw [if_pos (by simpa using lt_of_le_of_lt (Nat.mul_le_mul_right k g1) hq)]
          exact g3 hq
        · split_ifs
          · exact ih2 e he
          · exact ⟨_, rfl⟩
      · simp only [h, if_false]
        refine ⟨fun b' q' a' h => (by cases h), fun e _ => ?_⟩
        rw [if_neg]
        · exact ⟨_, rfl⟩
        · intro hh
          exact h ⟨hh.1, lt_of_le_of_lt (Nat.le_mul_of_pos_right _ hk) hh.2⟩

/-- The quote total of a mass cancellation is expressible in the new unit. -/
def RefMarket.Expressible (k : Nat) (a : RefMarket C) : Instr C → Prop
  | .massCancelOrders ids => ∀ s a', a.massCancelOrders ids = .ok (s, a') → s.totalQuoteQty * k < 2 ^ 64
  | _ => True

/-- How the answers in the two units are related. -/
def RefMarket.Likewise (k : Nat) (mass : Prop) (x y : Except Err (Option OrderSummary × RefMarket C)) : Prop :=
  match x with
  | .ok (s, a') => a'.Whole ∧ y = .ok (s.map (OrderSummary.times k), a'.times k)
  | .error e => ∃ e', y = .error e' ∧ (mass ∨ e' = e)

theorem newOrder_likewise [CallbackInfo C] (hk : 0 < k) (a : RefMarket C) (hw : a.Whole) {p : NewOrderParams C}
    (hp : p.postAllowed = true → 2 ^ 32 ∣ p.limitPrice) :
    RefMarket.Likewise k False (a.exec (.newOrder p)) ((a.times k).exec (.newOrder (p.times k))) := by
  have := newOrder_times hk a hw hp
  simp only [RefMarket.exec, this]
  cases hx : a.newOrder p with
  | error e => exact ⟨e, rfl, .inr rfl⟩
  | ok x => exact ⟨newOrder_whole hw hp hx, rfl⟩

theorem cancelOrder_likewise [CallbackInfo C] {a : RefMarket C} (hw : a.Whole) {id j : Nat}
    (hc : (a.times k).cancel1 j = (a.cancel1 id).map (fun x => (x.1.times k, x.2.times k))) :
    RefMarket.Likewise k False (a.exec (.cancelOrder id)) ((a.times k).exec (.cancelOrder j)) := by
  simp only [RefMarket.exec, RefMarket.cancelOrder, hc]
  cases hx : a.cancel1 id with
  | none => exact ⟨_, rfl, .inr rfl⟩
  | some x =>
    obtain ⟨h1, h2⟩ := cancel1_whole (o := x.1) (a' := x.2) hw hx
    refine ⟨h2, ?_⟩
    simp only [Option.map_some, Except.map, times_qty, times_price, worth_times h1, OrderSummary.times, Option.map_none]

theorem massCancel_likewise [CallbackInfo C] {a : RefMarket C} {ids js : List Nat}
    (h1 : ∀ b' q' a', RefMarket.massCancelFrom ids 0 0 a = .ok (b', q', a') → 0 ≤ q' ∧ a'.Whole ∧ (q' * k < 2 ^ 64 →
      RefMarket.massCancelFrom js 0 0 (a.times k) = .ok (b', q' * k, a'.times k)))
    (h2 : ∀ e, RefMarket.massCancelFrom ids 0 0 a = .error e →
      ∃ e', RefMarket.massCancelFrom js 0 0 (a.times k) = .error e')
    (he : ∀ s a', a.massCancelOrders ids = .ok (s, a') → s.totalQuoteQty * k < 2 ^ 64) :
    RefMarket.Likewise k True (a.exec (.massCancelOrders ids)) ((a.times k).exec (.massCancelOrders js)) := by
  simp only [RefMarket.exec, RefMarket.massCancelOrders]
  cases hx : RefMarket.massCancelFrom ids 0 0 a with
  | error e =>
    obtain ⟨e', g⟩ := h2 e hx
    rw [g]
    exact ⟨e', rfl, .inl trivial⟩
  | ok x =>
    obtain ⟨b', q', a'⟩ := x
    obtain ⟨-, g2, g3⟩ := h1 b' q' a' hx
    have hq : q' * k < 2 ^ 64 := he ⟨none, b', q', 0⟩ a' (by simp only [RefMarket.massCancelOrders, hx])
    rw [g3 hq]
    exact ⟨g2, rfl⟩

theorem consume_likewise [CallbackInfo C] {a : RefMarket C} (hw : a.Whole) (n : Nat) :
    RefMarket.Likewise k False (a.exec (.consumeEvents n)) ((a.times k).exec (.consumeEvents n)) := by
  refine ⟨fun side => ?_, ?_⟩
  · have := hw side
    cases side <;> exact this
  · simp [RefMarket.exec, RefMarket.times]

theorem exec_times [CallbackInfo C] (hk : 0 < k) (a : RefMarket C) (hw : a.Whole) {i : Instr C} (hi : i.Whole)
    (he : a.Expressible k i) :
    RefMarket.Likewise k (∃ ids, i = .massCancelOrders ids) (a.exec i) ((a.times k).exec (i.times k)) := by
  have weaken : ∀ {P Q : Prop} {x y : Except Err (Option OrderSummary × RefMarket C)}, (P → Q) →
      RefMarket.Likewise k P x y → RefMarket.Likewise k Q x y := by
    intro P Q x y hpq h
    cases x with
    | ok x => exact h
    | error e => obtain ⟨e', h1, h2⟩ := h; exact ⟨e', h1, h2.imp hpq id⟩
  cases i with
  | newOrder p => exact weaken False.elim (newOrder_likewise hk a hw hi)
  | cancelOrder id => exact weaken False.elim (cancelOrder_likewise hw (cancel1_times hk a id))
  | massCancelOrders ids =>
    obtain ⟨h1, h2⟩ := massCancel_times hk ids 0 0 a hw
    rw [Nat.zero_mul] at h1 h2
    exact weaken (fun _ => ⟨ids, rfl⟩) (massCancel_likewise h1 h2 he)
  | consumeEvents n => exact weaken False.elim (consume_likewise hw n)

theorem step_times [CallbackInfo C] (hk : 0 < k) (a : RefMarket C) (hw : a.Whole) {i : Instr C} (hi : i.Whole)
    (he : a.Expressible k i) : (a.step i).Whole ∧ (a.times k).step (i.times k) = (a.step i).times k := by
  have := exec_times hk a hw hi he
  unfold RefMarket.step
  cases hx : a.exec i with
  | error e =>
    rw [hx] at this
    obtain ⟨e', h, -⟩ := this
    rw [h]
    exact ⟨hw, rfl⟩
  | ok x =>
    rw [hx] at this
    rw [this.2]
    exact ⟨this.1, rfl⟩

end AOB
