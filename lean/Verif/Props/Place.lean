import Verif.Spec.Place
import Verif.Props.History
import Verif.Props.Posting
import Verif.Props.Book
/-
C88: a place in the queue is never lost. C89: how the best prices move.
-/
namespace AOB
variable {C : Type} [CallbackInfo C] {m m' : Market C} {p : NewOrderParams C} {s : OrderSummary}

/-! ### Where resting orders come from -/

/-- What rests after a transaction other than a new order rested before it. -/
theorem step_kept {c is} (h : ReachBy c is m) (hlen : is.length < 2 ^ 63) {i : Instr C} (hno : ∀ p, i ≠ .newOrder p)
    {side : Side} {x : Order C} (hx : x ∈ resting (m.step i) side) : x ∈ resting m side := by
  have sub : (∃ f, resting (m.step i) side = (resting m side).filter f) → x ∈ resting m side := by
    rintro ⟨f, e⟩
    rw [e] at hx
    exact (List.mem_filter.1 hx).1
  cases i with
  | newOrder p => exact absurd rfl (hno p)
  | cancelOrder id =>
    cases he : m.cancelOrder id with
    | error e =>
      have : m.step (.cancelOrder id) = m := by simp only [Market.step, Market.exec, he]; rfl
      rw [this] at hx; exact hx
    | ok r =>
      have hex : ∃ o ∈ allResting m, o.id = id := by
        by_contra hno
        have hno' : ∀ side, ∀ o ∈ resting m side, o.id ≠ id :=
          fun side o ho hid => hno ⟨o, mem_allResting.2 ⟨side, ho⟩, hid⟩
        rcases C22_cancel_missing h.reachable hno' with h' | ⟨h', _⟩ <;> rw [h'] at he <;> cases he
      obtain ⟨o, ho, rfl⟩ := hex
      obtain ⟨_, h1, _⟩ := h.cancel_step (by omega) (mem_allResting.1 ho)
      exact sub ⟨_, h1 side⟩
  | massCancelOrders ids =>
    cases he : m.massCancelOrders ids with
    | error e =>
      have : m.step (.massCancelOrders ids) = m := by simp only [Market.step, Market.exec, he]; rfl
      rw [this] at hx; exact hx
    | ok r =>
      obtain ⟨s, m1⟩ := r
      obtain ⟨os, hos⟩ := C24_only_if h (by omega) he
      obtain ⟨m', e1, e2, _⟩ := C24_mass_cancel h (by omega) hos
      have hmm : m1 = m' := by
        rw [he] at e1
        exact (Prod.mk.inj (Except.ok.inj e1)).2
      subst hmm
      have h1 : m.step (.massCancelOrders ids) = m1 := by simp only [Market.step, Market.exec, he, ok_bind]
      exact sub ⟨_, by rw [h1]; exact e2 side⟩
  | consumeEvents n =>
    obtain ⟨m', e1, _, e3, _⟩ := C26_consume h.reachable n
    have h1 : m.step (.consumeEvents n) = m' := by simp only [Market.step, Market.exec, e1, ok_bind]
    rw [h1, e3 side] at hx
    exact hx

/-- What rests after one transaction rested before it, under the same id and with no less, or its sequence number is new. -/
theorem step_from {c is} (h : ReachBy c is m) (hlen : is.length < 2 ^ 63) {i : Instr C} (hi : i.Ok) (side : Side)
    {x : Order C} (hx : x ∈ resting (m.step i) side) :
    (∃ y ∈ resting m side, y.id = x.id ∧ y.cb = x.cb ∧ x.qty ≤ y.qty) ∨ m.queue.header.seqNum ≤ seqOfId x.id := by
  by_cases hno : ∀ p, i ≠ .newOrder p
  · exact .inl ⟨x, step_kept h hlen hno hx, rfl, rfl, Nat.le_refl _⟩
  · push Not at hno
    obtain ⟨p, rfl⟩ := hno
    cases he : m.newOrder p with
    | error e =>
      have : m.step (.newOrder p) = m := by simp only [Market.step, Market.exec, he]; rfl
      rw [this] at hx
      exact .inl ⟨x, hx, rfl, rfl, Nat.le_refl _⟩
    | ok r =>
      obtain ⟨s, m'⟩ := r
      have h1 : m.step (.newOrder p) = m' := by simp only [Market.step, Market.exec, he, ok_bind]
      rw [h1] at hx
      rcases C48_nothing_appears h.reachable hi he side hx with ⟨y, hy, e1, e2, e3⟩ | ⟨_, e2, _⟩
      · exact .inl ⟨y, hy, e1, e2, by omega⟩
      · right
        obtain ⟨e1, _, e3⟩ := posted_id h hi he e2
        rw [e1, seqOfId_mk (by omega)]

theorem step_seq {c is} (h : ReachBy c is m) {i : Instr C} (hi : i.Ok) :
    m.queue.header.seqNum ≤ (m.step i).queue.header.seqNum := by
  obtain ⟨hk, _⟩ := h.known
  obtain ⟨hk', _⟩ := (h.step hi).known
  rw [hk.seqNum, hk'.seqNum]
  have := step_params ((c.ref : RefMarket C).run is) i
  rw [show (c.ref : RefMarket C).run (is ++ [i]) = ((c.ref : RefMarket C).run is).step i by
    simp only [RefMarket.run, List.foldl_append, List.foldl_cons, List.foldl_nil]]
  exact this.2.1

theorem ReachBy.append {c : Config} {is js : List (Instr C)} (h : ReachBy c is m) (hj : ∀ i ∈ js, i.Ok) :
    ReachBy c (is ++ js) (m.run js) := by
  obtain ⟨hv, hi, c0, rfl⟩ := h
  refine ⟨hv, fun i hi' => ?_, c0, ?_⟩
  · rcases List.mem_append.1 hi' with h | h
    · exact hi i h
    · exact hj i h
  · simp only [Market.run, List.foldl_append]

/-- The same over any number of transactions. -/
theorem run_from (side : Side) {x : Order C} : ∀ {js : List (Instr C)} {is : List (Instr C)} {m : Market C} {c : Config},
    ReachBy c is m → is.length + js.length ≤ 2 ^ 63 → (∀ i ∈ js, i.Ok) → x ∈ resting (m.run js) side →
    (∃ y ∈ resting m side, y.id = x.id ∧ y.cb = x.cb ∧ x.qty ≤ y.qty) ∨ m.queue.header.seqNum ≤ seqOfId x.id := by
  intro js
  induction js with
  | nil => intro is m c _ _ _ hx; exact .inl ⟨x, hx, rfl, rfl, Nat.le_refl _⟩
  | cons i js ih =>
    intro is m c h hl hj hx
    rw [List.length_cons] at hl
    have hi : i.Ok := hj i (by simp)
    rcases ih (h.step hi) (by rw [List.length_append, List.length_singleton]; omega)
      (fun j hj' => hj j (List.mem_cons_of_mem _ hj')) hx with ⟨y, hy, e1, e2, e3⟩ | hs
    · rcases step_from h (by omega) hi side hy with ⟨z, hz, f1, f2, f3⟩ | hs
      · exact .inl ⟨z, hz, f1.trans e1, f2.trans e2, by omega⟩
      · right; rw [← e1]; exact hs
    · right
      have := step_seq h hi
      omega

/-! ### Ranked lists -/

omit [CallbackInfo C] in
theorem Side.before_asymm {side : Side} {x y : Order C} (h : side.before x y) : ¬ side.before y x := by
  cases side <;> simp only [Side.before] at * <;> omega

omit [CallbackInfo C] in
/-- The orders before `o` are those that rank before it. -/
theorem mem_before {side : Side} (hs : (resting m side).Pairwise side.before) {o x : Order C} (ho : o ∈ resting m side) :
    x ∈ before m side o.id ↔ x ∈ resting m side ∧ side.before x o := by
  unfold AOB.before
  generalize resting m side = l at hs ho
  revert ho
  induction hs with
  | nil => simp
  | @cons y l hy hl ih =>
    intro ho
    rcases List.mem_cons.1 ho with rfl | ho'
    · rw [List.takeWhile_cons_of_neg (by simp)]
      constructor
      · intro h; cases h
      · rintro ⟨hx, hb⟩
        rcases List.mem_cons.1 hx with rfl | hx
        · exact absurd hb (Side.before_asymm hb)
        · exact absurd hb (Side.before_asymm (hy x hx))
    · have hne : y.id ≠ o.id := by
        have := hy o ho'
        cases side <;> simp only [Side.before] at this <;> omega
      rw [List.takeWhile_cons_of_pos (by simpa using hne), List.mem_cons, ih ho', List.mem_cons]
      constructor
      · rintro (rfl | ⟨h1, h2⟩)
        · exact ⟨.inl rfl, hy o ho'⟩
        · exact ⟨.inr h1, h2⟩
      · rintro ⟨rfl | h1, h2⟩
        · exact .inl rfl
        · exact .inr ⟨h1, h2⟩

omit [CallbackInfo C] in
/-- Two ranked lists, each order of the first found in the second with no less. -/
theorem ranked_sub {side : Side} : ∀ {l2 l1 : List (Order C)}, l1.Pairwise side.before → l2.Pairwise side.before →
    (∀ x ∈ l1, ∃ y ∈ l2, y.id = x.id ∧ x.qty ≤ y.qty) →
    (l1.map Order.id).Sublist (l2.map Order.id) ∧ sumQty l1 ≤ sumQty l2 := by
  intro l2
  induction l2 with
  | nil =>
    intro l1 _ _ h
    cases l1 with
    | nil => simp
    | cons a l => obtain ⟨y, hy, _⟩ := h a (by simp); cases hy
  | cons b l2 ih =>
    intro l1 h1 h2 h
    rw [List.pairwise_cons] at h2
    cases l1 with
    | nil => simp
    | cons a l1 =>
      rw [List.pairwise_cons] at h1
      obtain ⟨y, hy, e1, e2⟩ := h a (by simp)
      have tail : ∀ x ∈ l1, x.id ≠ b.id → ∃ y ∈ l2, y.id = x.id ∧ x.qty ≤ y.qty := by
        intro x hx hne
        obtain ⟨z, hz, f1, f2⟩ := h x (List.mem_cons_of_mem _ hx)
        rcases List.mem_cons.1 hz with rfl | hz
        · exact absurd f1.symm hne
        · exact ⟨z, hz, f1, f2⟩
      rcases List.mem_cons.1 hy with rfl | hy
      · obtain ⟨g1, g2⟩ := ih h1.2 h2.2 (fun x hx => tail x hx (by
          have := h1.1 x hx
          cases side <;> simp only [Side.before] at this <;> omega))
        rw [List.map_cons, List.map_cons, e1, sumQty_cons, sumQty_cons]
        exact ⟨g1.cons_cons _, by omega⟩
      · have hba := h2.1 y hy
        obtain ⟨g1, g2⟩ := ih (l1 := a :: l1) (List.pairwise_cons.2 h1) h2.2 (fun x hx => by
          rcases List.mem_cons.1 hx with rfl | hx
          · exact ⟨y, hy, e1, e2⟩
          · exact tail x hx (by
              have := h1.1 x hx
              cases side <;> simp only [Side.before] at this hba <;> omega))
        rw [List.map_cons, sumQty_cons (a := b)]
        exact ⟨g1.cons _, by omega⟩

omit [CallbackInfo C] in
theorem before_sublist (side : Side) (id : Nat) : (before m side id).Sublist (resting m side) :=
  List.takeWhile_sublist _

/-! ### Places -/

/-- C88: whoever is served before an order later on was before it already, with no less, or rests at a better price. -/
theorem C88_overtaking {c is} (h : ReachBy c is m) {js : List (Instr C)} (hlen : is.length + js.length ≤ 2 ^ 63)
    (hj : ∀ i ∈ js, i.Ok) {side : Side} {o o' : Order C} (ho : o ∈ resting m side) (ho' : o' ∈ resting (m.run js) side)
    (hid : o'.id = o.id) {x : Order C} (hx : x ∈ before (m.run js) side o.id) :
    (∃ y ∈ before m side o.id, y.id = x.id ∧ y.cb = x.cb ∧ x.qty ≤ y.qty) ∨ side.worse o.price x.price := by
  obtain ⟨hk, hseq, _⟩ := h.known
  have h' : ReachBy c (is ++ js) (m.run js) := h.append hj
  obtain ⟨hk', hseq', _⟩ := h'.known
  rw [List.length_append] at hseq'
  have hs := hk.inv.sorted side
  have hs' := hk'.inv.sorted side
  rw [← hk.rep.resting] at hs
  rw [← hk'.rep.resting] at hs'
  rw [← hid, mem_before hs' ho'] at hx
  obtain ⟨hx, hb⟩ := hx
  have hb : side.before x o := by
    cases side <;> simp only [Side.before, hid] at hb ⊢ <;> exact hb
  rcases run_from side h hlen hj hx with ⟨y, hy, e1, e2, e3⟩ | hnew
  · left
    refine ⟨y, (mem_before hs ho).2 ⟨hy, ?_⟩, e1, e2, e3⟩
    cases side <;> simp only [Side.before, e1] at hb ⊢ <;> exact hb
  · right
    rw [hk.rep.resting] at ho
    rw [hk'.rep.resting] at hx
    obtain ⟨n, hn, en⟩ := (hk.inv.ok side o ho).id
    obtain ⟨k, hk1, ek⟩ := (hk'.inv.ok side x hx).id
    rw [ek, seqOfId_mk (by omega), hk.seqNum] at hnew
    have hxl := (hk'.inv.ok side x hx).price_lt
    have hol := (hk.inv.ok side o ho).price_lt
    generalize x.price = q at *
    generalize o.price = r at *
    cases side <;> simp only [Side.before, Side.worse, ek, en, mkOrderId] at hb ⊢ <;> omega

/-- C88: at its own price an order is served after fewer and fewer: the orders ahead of it are, in the same sequence,
some of those that were ahead of it, and they have no more to sell. -/
theorem C88_place {c is} (h : ReachBy c is m) {js : List (Instr C)} (hlen : is.length + js.length ≤ 2 ^ 63)
    (hj : ∀ i ∈ js, i.Ok) {side : Side} {o o' : Order C} (ho : o ∈ resting m side) (ho' : o' ∈ resting (m.run js) side)
    (hid : o'.id = o.id) :
    ((ahead (m.run js) side o.id).map Order.id).Sublist ((ahead m side o.id).map Order.id) ∧
      sumQty (ahead (m.run js) side o.id) ≤ sumQty (ahead m side o.id) ∧ o'.qty ≤ o.qty ∧ o'.cb = o.cb := by
  obtain ⟨hk, _⟩ := h.known
  have h' : ReachBy c (is ++ js) (m.run js) := h.append hj
  obtain ⟨hk', _⟩ := h'.known
  have hs := hk.inv.sorted side
  have hs' := hk'.inv.sorted side
  rw [← hk.rep.resting] at hs
  rw [← hk'.rep.resting] at hs'
  have key := ranked_sub (side := side) (l1 := ahead (m.run js) side o.id) (l2 := ahead m side o.id)
    (hs'.sublist (List.filter_sublist.trans (before_sublist _ _))) (hs.sublist (List.filter_sublist.trans (before_sublist _ _)))
    (by
      intro x hx
      unfold ahead at hx
      rw [List.mem_filter] at hx
      have hxp : x.price = o.price := by simpa [Order.price] using hx.2
      rcases C88_overtaking h hlen hj ho ho' hid hx.1 with ⟨y, hy, e1, _, e3⟩ | hb
      · refine ⟨y, ?_, e1, e3⟩
        unfold ahead
        rw [List.mem_filter]
        refine ⟨hy, ?_⟩
        have : y.price = x.price := by unfold Order.price; rw [e1]
        rw [this]; exact hx.2
      · rw [hxp] at hb
        cases side <;> simp only [Side.worse] at hb <;> omega)
  refine ⟨key.1, key.2, ?_⟩
  rcases run_from side h hlen hj ho' with ⟨y, hy, e1, e2, e3⟩ | hnew
  · have : y = o := by
      have hn := hk.inv.nodup side
      rw [← hk.rep.resting] at hn
      exact List.inj_on_of_nodup_map hn hy ho (e1.trans hid)
    subst this
    exact ⟨e3, e2.symm⟩
  · rw [hk.rep.resting] at ho
    obtain ⟨n, hn, en⟩ := (hk.inv.ok side o ho).id
    have := h.known.2.1
    rw [hid, en, seqOfId_mk (by omega), hk.seqNum] at hnew
    omega

/-! ### Best prices -/

theorem bestPrice_le (h : Reachable m) {side : Side} {q : Nat} (hq : q ∈ bestPrice m side) :
    (∃ x ∈ resting m side, x.price = q) ∧ ∀ x ∈ resting m side, ¬ side.worse q x.price := by
  have hr := C02_rank_is_price h side
  unfold bestPrice at hq
  cases hl : resting m side with
  | nil => rw [hl] at hq; simp at hq
  | cons b l =>
    rw [hl] at hq hr
    have hb : b.price = q := by simpa using hq
    rw [List.pairwise_cons] at hr
    refine ⟨⟨b, by simp, hb⟩, fun x hx => ?_⟩
    rcases List.mem_cons.1 hx with rfl | hx
    · cases side <;> simp only [Side.worse, hb] <;> omega
    · have := hr.1 x hx
      cases side <;> simp only [Side.worse] at * <;> omega

omit [CallbackInfo C] in
theorem bestPrice_some {side : Side} {x : Order C} (hx : x ∈ resting m side) : ∃ q, q ∈ bestPrice m side := by
  unfold bestPrice
  cases hl : resting m side with
  | nil => rw [hl] at hx; cases hx
  | cons b l => exact ⟨b.price, by simp⟩

/-- `m2` has nothing as good as `m1` does not have. -/
theorem noBetter_of (h1 : Reachable m) (h2 : Reachable m') {side : Side}
    (h : ∀ x ∈ resting m' side, ∃ y ∈ resting m side, ¬ side.worse y.price x.price) :
    NoBetter side (bestPrice m side) (bestPrice m' side) := by
  intro q hq
  obtain ⟨⟨x, hx, rfl⟩, _⟩ := bestPrice_le h2 hq
  obtain ⟨y, hy, hw⟩ := h x hx
  obtain ⟨r, hr⟩ := bestPrice_some hy
  refine ⟨r, hr, ?_⟩
  have := (bestPrice_le h1 hr).2 y hy
  cases side <;> simp only [Side.worse] at * <;> omega

/-- C89: a new order never improves the best price of the side it trades with. -/
theorem C89_opposite (h : Reachable m) (hp : (Instr.newOrder p).Ok) (he : m.newOrder p = .ok (s, m')) :
    NoBetter p.side.opposite (bestPrice m p.side.opposite) (bestPrice m' p.side.opposite) := by
  obtain ⟨c, is, hr⟩ := h
  have hr' := hr.step hp
  have h1 : m.step (.newOrder p) = m' := by simp only [Market.step, Market.exec, he, ok_bind]
  rw [h1] at hr'
  refine noBetter_of ⟨c, is, hr⟩ ⟨_, _, hr'⟩ fun x hx => ?_
  rcases C48_nothing_appears ⟨c, is, hr⟩ hp he _ hx with ⟨y, hy, e, _⟩ | ⟨e, _⟩
  · refine ⟨y, hy, ?_⟩
    have : y.price = x.price := by unfold Order.price; rw [e]
    rw [this]
    cases p.side.opposite <;> simp only [Side.worse] <;> omega
  · cases hs : p.side <;> rw [hs] at e <;> cases e

/-- C89: a new order never worsens the best price of its own side: it stays, or becomes the limit price of the order
posted, which is better or was the first. -/
theorem C89_own (h : Reachable m) (hp : (Instr.newOrder p).Ok) (he : m.newOrder p = .ok (s, m')) :
    NoWorse p.side (bestPrice m p.side) (bestPrice m' p.side) ∧
      (bestPrice m' p.side = bestPrice m p.side ∨
        (s.postedOrderId.isSome ∧ bestPrice m' p.side = some p.limitPrice ∧
          ∀ r ∈ bestPrice m p.side, p.side.worse r p.limitPrice)) := by
  obtain ⟨c, is, hr⟩ := h
  have hr' := hr.step hp
  have h1 : m.step (.newOrder p) = m' := by simp only [Market.step, Market.exec, he, ok_bind]
  rw [h1] at hr'
  have hm : Reachable m := ⟨c, is, hr⟩
  have hm' : Reachable m' := ⟨_, _, hr'⟩
  cases hid : s.postedOrderId with
  | none =>
    have : bestPrice m' p.side = bestPrice m p.side := by
      unfold bestPrice; rw [(C15_not_posted hm hp he hid).2]
    rw [this]
    exact ⟨fun r hr => ⟨r, hr, by cases p.side <;> simp only [Side.worse] <;> omega⟩, .inl rfl⟩
  | some id =>
    obtain ⟨_, hprice, L, R, hLR, _⟩ := C15_posted_order hr hp he hid
    have hnew : (⟨id, s.totalBaseQtyPosted, p.callbackInfo⟩ : Order C) ∈ resting m' p.side := by rw [hLR]; simp
    have old : ∀ x ∈ resting m p.side, ∃ y ∈ resting m' p.side, ¬ p.side.worse y.price x.price := by
      intro x hx
      by_cases hfull : (resting m p.side).length = c.cap p.side
      · obtain ⟨kept, w, _, k1, k2, _, _, L', R', k3, k4⟩ := C17_eviction hr hp he hfull hid
        rw [k1, List.mem_append, List.mem_singleton] at hx
        rcases hx with hx | rfl
        · refine ⟨x, ?_, by cases p.side <;> simp only [Side.worse] <;> omega⟩
          rw [k4]
          rw [k3, List.mem_append] at hx
          rcases hx with hx | hx <;> simp [hx]
        · refine ⟨_, hnew, ?_⟩
          have hpr : (⟨id, s.totalBaseQtyPosted, p.callbackInfo⟩ : Order C).price = p.limitPrice := hprice
          rw [hpr]
          cases hs : p.side <;> rw [hs] at k2 <;> simp only [Side.worse] at k2 ⊢ <;> omega
      · have := (C12_parameters hr).2.2.1 p.side
        exact ⟨x, (C17_no_eviction hr hp he (.inl (by omega))).2 x hx,
          by cases p.side <;> simp only [Side.worse] <;> omega⟩
    have nw : NoWorse p.side (bestPrice m p.side) (bestPrice m' p.side) := by
      intro r hr
      obtain ⟨⟨x, hx, rfl⟩, _⟩ := bestPrice_le hm hr
      obtain ⟨y, hy, hw⟩ := old x hx
      obtain ⟨q, hq⟩ := bestPrice_some hy
      refine ⟨q, hq, ?_⟩
      have := (bestPrice_le hm' hq).2 y hy
      cases hs : p.side <;> rw [hs] at hw this <;> simp only [Side.worse] at * <;> omega
    refine ⟨nw, ?_⟩
    obtain ⟨q, hq⟩ := bestPrice_some hnew
    have hqn := (bestPrice_le hm' hq).2 _ hnew
    have hpr : (⟨id, s.totalBaseQtyPosted, p.callbackInfo⟩ : Order C).price = p.limitPrice := hprice
    rw [hpr] at hqn
    by_cases hall : ∀ r ∈ bestPrice m p.side, p.side.worse r p.limitPrice
    · right
      refine ⟨rfl, ?_, hall⟩
      obtain ⟨⟨x, hx, ex⟩, _⟩ := bestPrice_le hm' hq
      rcases C48_nothing_appears hm hp he _ hx with ⟨y, hy, e, _⟩ | ⟨_, e, _⟩
      · obtain ⟨r, hr⟩ := bestPrice_some hy
        have e1 := (bestPrice_le hm hr).2 y hy
        have e2 := hall r hr
        have e3 : y.price = x.price := by unfold Order.price; rw [e]
        rw [e3, ex] at e1
        exfalso
        cases hs : p.side <;> rw [hs] at e1 e2 hqn <;> simp only [Side.worse] at * <;> omega
      · rw [hid] at e
        have : x.price = p.limitPrice := by
          unfold Order.price; rw [← Option.some.inj e]; exact hprice
        rw [Option.mem_def] at hq
        rw [hq, ← ex, this]
    · left
      push Not at hall
      obtain ⟨r, hr, hw⟩ := hall
      obtain ⟨q', hq', hw'⟩ := nw r hr
      have : q' = q := Option.some.inj (hq'.symm.trans hq)
      subst this
      obtain ⟨⟨x, hx, ex⟩, _⟩ := bestPrice_le hm' hq
      have hqr : ¬ p.side.worse r q' := by
        rcases C48_nothing_appears hm hp he _ hx with ⟨y, hy, e, _⟩ | ⟨_, e, _⟩
        · have e1 := (bestPrice_le hm hr).2 y hy
          have e3 : y.price = x.price := by unfold Order.price; rw [e]
          rw [e3, ex] at e1
          exact e1
        · rw [hid] at e
          have : x.price = p.limitPrice := by
            unfold Order.price; rw [← Option.some.inj e]; exact hprice
          rw [← ex, this]; exact hw
      have : q' = r := by
        cases hs : p.side <;> rw [hs] at hqr hw' <;> simp only [Side.worse] at * <;> omega
      subst this
      rw [Option.mem_def] at hq hr
      rw [hq, hr]

/-- C89: cancelling never improves a best price; consuming events changes none. -/
theorem C89_others {c is} (h : ReachBy c is m) (hlen : is.length < 2 ^ 63) {i : Instr C} (hi : i.Ok) (side : Side) :
    (∀ p, i ≠ .newOrder p) → NoBetter side (bestPrice m side) (bestPrice (m.step i) side) ∧
      ((∃ n, i = .consumeEvents n) → bestPrice (m.step i) side = bestPrice m side) := by
  intro hno
  constructor
  · refine noBetter_of h.reachable (h.step hi).reachable fun x hx => ?_
    have hsub : x ∈ resting m side := step_kept h hlen hno hx
    exact ⟨x, hsub, by cases side <;> simp only [Side.worse] <;> omega⟩
  · rintro ⟨n, rfl⟩
    obtain ⟨m', e1, _, e3, _⟩ := C26_consume h.reachable n
    have h1 : m.step (.consumeEvents n) = m' := by simp only [Market.step, Market.exec, e1, ok_bind]
    unfold bestPrice
    rw [h1, e3]

/-- C89: over any number of transactions, a best price that is better than before (or that is the first one) is the price of
an order posted in between. -/
theorem C89_run {c is} (h : ReachBy c is m) {js : List (Instr C)} (hlen : is.length + js.length ≤ 2 ^ 63)
    (hj : ∀ i ∈ js, i.Ok) {side : Side} {q : Nat} (hq : q ∈ bestPrice (m.run js) side) :
    (∃ r ∈ bestPrice m side, ¬ side.worse r q) ∨
      ∃ o ∈ (runLog m js).posted, o.price = q ∧ getSideFromOrderId o.id = side := by
  have h' := h.append hj
  obtain ⟨⟨x, hx, rfl⟩, _⟩ := bestPrice_le h'.reachable hq
  rcases run_from side h hlen hj hx with ⟨y, hy, e, _⟩ | hnew
  · left
    obtain ⟨r, hr⟩ := bestPrice_some hy
    have e1 := (bestPrice_le h.reachable hr).2 y hy
    have e3 : y.price = x.price := by unfold Order.price; rw [e]
    rw [e3] at e1
    exact ⟨r, hr, e1⟩
  · right
    have hside := C11_resting_side h' (by rw [List.length_append]; exact hlen) hx
    obtain ⟨hv, hok, c0, rfl⟩ := h
    have h1 : HistoryOf c is ((c.market c0).run is) (runLog (c.market c0) is) := ⟨hv, hok, c0, rfl, rfl⟩
    have h2 : HistoryOf c (is ++ js) (((c.market c0).run is).run js) (runLog (c.market c0) (is ++ js)) :=
      ⟨hv, h'.2.1, c0, by simp only [Market.run, List.foldl_append], rfl⟩
    obtain ⟨o, ho, e1, _⟩ := (C09_from_posting h2 (by rw [List.length_append]; exact hlen)).2.2.1 side x hx
    rw [runLog_append] at ho
    rcases List.mem_append.1 ho with ho | ho
    · have := (h1.inv (by omega)).seq o ho
      rw [e1] at this
      omega
    · refine ⟨o, ho, by unfold Order.price; rw [e1], by rw [e1]; exact hside⟩

/-! ### Concrete cases -/

/-- User 9 takes 2 of the first ask, user 8 joins the queue at 10, user 7 rests at the better price 9.5, user 2 cancels. -/
def demoPlaces : List (Instr DemoCb) :=
  [.newOrder (demoOrder .bid 2 10 9), .newOrder (demoOrder .ask 4 10 8),
   .newOrder { demoOrder .ask 3 10 7 with limitPrice := 19 * 2 ^ 31 }, .cancelOrder (11 * 2 ^ 96 + 1), .consumeEvents 1]

/-- User 3 sold 7 at 10, as the third. -/
def demoWaiting : Order DemoCb := ⟨10 * 2 ^ 96 + 2, 7, ⟨3, 7⟩⟩

example := C88_place demo_reachBy (js := demoPlaces) (side := .ask) (o := demoWaiting) (o' := demoWaiting)
  (by decide) (by decide +kernel) (by decide +kernel) (by decide +kernel) rfl
example := C88_overtaking demo_reachBy (js := demoPlaces) (side := .ask) (o := demoWaiting) (o' := demoWaiting)
  (x := ⟨19 * 2 ^ 95 + 7, 3, ⟨7, 7⟩⟩) (by decide) (by decide +kernel) (by decide +kernel) (by decide +kernel) rfl (by decide +kernel)
example : (ahead demo .ask demoWaiting.id).map (fun o => (o.cb.user, o.qty)) = [(1, 5)] ∧
    (ahead (demo.run demoPlaces) .ask demoWaiting.id).map (fun o => (o.cb.user, o.qty)) = [(1, 3)] ∧
    (before (demo.run demoPlaces) .ask demoWaiting.id).map (fun o => (o.cb.user, o.qty)) = [(7, 3), (1, 3)] ∧
    (resting (demo.run demoPlaces) .ask).map (fun o => (o.cb.user, o.qty)) = [(7, 3), (1, 3), (3, 7), (8, 4)] := by
  decide +kernel

example := C89_opposite demo_reachable demoTake_ok demo_take
example := C89_own demo_reachable demoTake_ok demo_take
example : bestPrice demo .ask = some (10 * 2 ^ 32) ∧ bestPrice demoAfter .ask = none ∧
    bestPrice demo .bid = some (9 * 2 ^ 32) ∧ bestPrice demoAfter .bid = some (11 * 2 ^ 32) := by decide +kernel
example := C89_others demo_reachBy (by decide) (i := .cancelOrder (10 * 2 ^ 96)) (by decide) .ask (by simp)
example : bestPrice (demo.step (.cancelOrder (11 * 2 ^ 96 + 1))) .ask = some (10 * 2 ^ 32) := by decide +kernel
example := C89_run demo_reachBy (js := demoPlaces) (side := .ask) (q := 19 * 2 ^ 31) (by decide) (by decide +kernel) (by decide +kernel)

end AOB
