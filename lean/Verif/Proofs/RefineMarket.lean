import Verif.Proofs.RefinePost
/-
Every instruction of the modelled market refines the reference engine.
-/
namespace AOB
variable {C : Type}

@[simp] theorem RefMarket.orders_setOrders (a : RefMarket C) (side : Side) (l) :
    (a.setOrders side l).orders side = l := by cases side <;> rfl
@[simp] theorem RefMarket.orders_setOrders_opp (a : RefMarket C) (side : Side) (l) :
    (a.setOrders side.opposite l).orders side = a.orders side := by cases side <;> rfl
@[simp] theorem RefMarket.orders_opp_setOrders (a : RefMarket C) (side : Side) (l) :
    (a.setOrders side l).orders side.opposite = a.orders side.opposite := by cases side <;> rfl
@[simp] theorem RefMarket.setOrders_fields (a : RefMarket C) (side : Side) (l) :
    (a.setOrders side l).minBase = a.minBase ∧ (a.setOrders side l).tick = a.tick ∧
    (a.setOrders side l).capEvents = a.capEvents ∧ (a.setOrders side l).seq = a.seq ∧
    (a.setOrders side l).events = a.events ∧ ∀ s, (a.setOrders side l).cap s = a.cap s := by
  cases side <;> exact ⟨rfl, rfl, rfl, rfl, rfl, fun s => by cases s <;> rfl⟩

theorem side_cases {P : Side → Prop} (side : Side) (h1 : P side) (h2 : P side.opposite) : ∀ s, P s := by
  intro s
  cases side <;> cases s <;> assumption

/-- Rebuilding `MRep` from its parts. -/
theorem MRep.mk' {m : Market C} {a : RefMarket C} (side : Side) (h1 : m.minBaseOrderSize = a.minBase)
    (h2 : m.tickSize = a.tick)
    (h3 : PRep side (m.book.getTree side) (a.orders side))
    (h4 : PRep side.opposite (m.book.getTree side.opposite) (a.orders side.opposite))
    (h5 : (m.book.getTree side).leafNodes.length = a.cap side)
    (h6 : (m.book.getTree side.opposite).leafNodes.length = a.cap side.opposite)
    (h7 : QRep m.queue a.events) (h8 : m.queue.events.length = a.capEvents)
    (h9 : m.queue.header.seqNum = a.seq) : MRep m a :=
  ⟨h1, h2, side_cases side h3 h4, side_cases side h5 h6, h7, h8, h9⟩

variable [CallbackInfo C]

/-- The result of matching never exceeds its inputs. -/
theorem refMatch_le {p : NewOrderParams C} {minBase : Nat} :
    ∀ {ml room opp b q x r}, refMatch p minBase ml room opp b q x = .ok r → r.base ≤ b ∧ r.quote ≤ q := by
  intro ml
  induction ml with
  | zero =>
    intro room opp b q x r h
    simp only [refMatch, Except.ok.injEq] at h
    subst h; simp
  | succ ml ih =>
    intro room opp b q x r h
    cases opp with
    | nil =>
      simp only [refMatch, Except.ok.injEq] at h
      subst h; simp
    | cons o rest =>
      simp only [refMatch] at h
      have emit : ∀ {es : List (Event C)} {x : Except AoError (MatchOut C)} {r}, x.map (MatchOut.emit es) = .ok r →
          ∃ r', x = .ok r' ∧ r = r'.emit es := by
        intro es x r h
        cases x with
        | error e => cases h
        | ok r' => exact ⟨r', rfl, by cases h; rfl⟩
      split at h
      · cases h; simp
      split at h
      · cases h; simp
      split at h
      · split at h
        · cases h
        split at h
        · cases h
        obtain ⟨r', h1, rfl⟩ := emit h
        have := ih h1
        simpa only [MatchOut.emit] using this
      split at h
      · split at h
        · cases h
        obtain ⟨r', h1, rfl⟩ := emit h
        have := ih h1
        simp only [MatchOut.emit]
        omega
      · split at h
        · cases h
        obtain ⟨r', h1, rfl⟩ := emit h
        have := ih h1
        simp only [MatchOut.emit]
        omega

theorem newOrder_refines {m : Market C} {a : RefMarket C} (hm : MRep m a) (ha : RefInv a)
    (p : NewOrderParams C) (hp : (Instr.newOrder p).Ok) :
    match a.newOrder p with
    | .error e => m.newOrder p = .error e
    | .ok (s, a') => ∃ m', m.newOrder p = .ok (s, m') ∧ MRep m' a' := by
  obtain ⟨hp1, hp2, hp3⟩ := hp
  unfold RefMarket.newOrder Market.newOrder
  rw [hm.tick]
  by_cases ht0 : a.tick = 0
  · rw [if_pos ht0]
    simp only [remU, if_pos ht0, err_bind]
  rw [if_neg ht0, remU_ok (Nat.pos_of_ne_zero ht0), ok_bind]
  by_cases hbad : p.limitPrice % a.tick ≠ 0 ∨ (p.postAllowed = true ∧ p.limitPrice < a.tick)
  · rw [if_pos hbad]
    by_cases h1 : p.limitPrice % a.tick ≠ 0
    · rw [if_pos h1]
    · rw [if_neg h1]
      have h2 : p.postAllowed = true ∧ p.limitPrice < a.tick := by tauto
      rw [if_pos (by simp [h2.1, h2.2])]
  rw [if_neg hbad]
  have h1 : ¬ p.limitPrice % a.tick ≠ 0 := by tauto
  have h2 : ¬ (p.postAllowed && decide (p.limitPrice < a.tick)) = true := by
    rw [Bool.and_eq_true, decide_eq_true_iff]; tauto
  rw [if_neg h1, if_neg h2]
  have hml := matchLoop_refines p a.minBase p.matchLimit
    { book := m.book, queue := m.queue, baseRem := p.maxBaseQty, quoteRem := p.maxQuoteQty,
      crossed := true } (a.orders p.side.opposite) a.events (hm.tree _) hm.queue hp2 hp3
    (fun o ho => (ha.ok _ o ho).qty)
  simp only [hm.capEvents] at hml
  unfold OrderBook.newOrder
  rw [hm.minBase]
  generalize hrm : refMatch p a.minBase p.matchLimit (a.capEvents - a.events.length)
    (a.orders p.side.opposite) p.maxBaseQty p.maxQuoteQty true = rm at hml
  cases rm with
  | error e => simp only at hml ⊢; rw [hml]; rfl
  | ok r =>
    obtain ⟨st, g1, g2, g3, g4, g5, g6, g7⟩ := hml
    obtain ⟨hrb, hrq⟩ := refMatch_le hrm
    simp only
    rw [g1, ok_bind, g4, g5, g6]
    have hown := g7.own
    have hsz := g7.size
    have hevs := g7.evs
    have hsq := g7.seq
    simp only at hown hsz hevs hsq
    have hos : ({ a.setOrders p.side.opposite r.opp with events := a.events ++ r.events } :
        RefMarket C).orders p.side = a.orders p.side := by cases p.side <;> rfl
    have hf0 : ∀ evs n, a.minBase = ({ a.setOrders p.side.opposite r.opp with events := evs, seq := n } :
        RefMarket C).minBase ∧ a.tick = ({ a.setOrders p.side.opposite r.opp with events := evs, seq := n } :
        RefMarket C).tick := by intro evs n; cases p.side <;> exact ⟨rfl, rfl⟩
    have hf1 : ∀ evs n own evs', a.minBase = ({ ({ a.setOrders p.side.opposite r.opp with
          events := evs, seq := n } : RefMarket C).setOrders p.side own with events := evs' } :
          RefMarket C).minBase ∧
        a.tick = ({ ({ a.setOrders p.side.opposite r.opp with
          events := evs, seq := n } : RefMarket C).setOrders p.side own with events := evs' } :
          RefMarket C).tick := by intro evs n own evs'; cases p.side <;> exact ⟨rfl, rfl⟩
    have htp : p.postAllowed = true →
        min ((fp32Div r.quote p.limitPrice).getD u64Max) r.base =
        min (affordable r.quote p.limitPrice) r.base := by
      intro hpa
      have : 0 < p.limitPrice := by
        have : ¬ p.limitPrice < a.tick := by tauto
        omega
      rw [Nat.min_comm, min_fp32Div (by omega) this, Nat.min_comm]
    have hnp : ∀ (q : EventQueue C) (b : OrderBook C), (do
        let sum ← summaryNotPosted p r.base r.quote
        .ok (sum, b, q) : Res (OrderSummary × OrderBook C × EventQueue C)) =
        .ok ({ postedOrderId := none, totalBaseQty := p.maxBaseQty - r.base,
               totalQuoteQty := p.maxQuoteQty - r.quote, totalBaseQtyPosted := 0 }, b, q) := by
      intro q b
      unfold summaryNotPosted
      rw [subU_ok hrb, ok_bind, subU_ok hrq, ok_bind, ok_bind]
    have hcond : (r.crossed || !p.postAllowed ||
          decide (min ((fp32Div r.quote p.limitPrice).getD u64Max) r.base < a.minBase)) =
        (r.crossed || !p.postAllowed ||
          decide (min (affordable r.quote p.limitPrice) r.base < a.minBase)) := by
      cases hpa : p.postAllowed
      · simp
      · rw [htp hpa]
    rw [hcond]
    by_cases hc : (r.crossed || !p.postAllowed ||
          decide (min (affordable r.quote p.limitPrice) r.base < a.minBase)) = true
    · rw [if_pos hc, if_pos hc, hnp, ok_bind]
      refine ⟨_, rfl, ?_⟩
      apply MRep.mk' p.side
      · simp
      · simp
      · show PRep p.side (st.book.getTree p.side) _
        rw [hown]
        rw [hos]; exact hm.tree p.side
      · have : ({ a.setOrders p.side.opposite r.opp with events := a.events ++ r.events } : RefMarket C).orders
            p.side.opposite = r.opp := by cases p.side <;> rfl
        rw [this]; exact g2
      · show (st.book.getTree p.side).leafNodes.length = _
        rw [hown, hm.cap]; cases p.side <;> rfl
      · show (st.book.getTree p.side.opposite).leafNodes.length = _
        rw [hsz.1, hm.cap]; cases p.side <;> rfl
      · exact g3
      · show st.queue.events.length = _
        rw [hevs, hm.capEvents]; cases p.side <;> rfl
      · show st.queue.header.seqNum = _
        rw [hsq, hm.seq]; cases p.side <;> rfl
    rw [if_neg hc, if_neg hc]
    have hpa : p.postAllowed = true := by
      cases h : p.postAllowed
      · simp [h] at hc
      · rfl
    rw [htp hpa]
    have hlp : 0 < p.limitPrice := by
      have : ¬ p.limitPrice < a.tick := by tauto
      omega
    generalize htoPost : min (affordable r.quote p.limitPrice) r.base = toPost at hc
    have hseq : st.queue.header.seqNum = a.seq := by rw [hsq, hm.seq]
    by_cases hov : a.seq + 1 ≥ 2 ^ 64
    · rw [if_pos hov, genOrderId_panic (by rw [hseq]; omega)]
      rfl
    rw [if_neg hov, genOrderId_ok (by rw [hseq]; omega), ok_bind, hseq]
    simp only
    have hidp : (⟨mkOrderId p.side p.limitPrice a.seq, toPost, p.callbackInfo⟩ : Order C).price =
        p.limitPrice := mkOrderId_price (by omega)
    have hpl := postLeaf_refines (side := p.side) (s := st.book.getTree p.side) (own := a.orders p.side)
      (q := { st.queue with header := { st.queue.header with seqNum := a.seq + 1 } })
      (evs := a.events ++ r.events)
      (o := ⟨mkOrderId p.side p.limitPrice a.seq, toPost, p.callbackInfo⟩) (seq := a.seq)
      (by rw [hown]; exact hm.tree p.side) (QRepR.setSeq g3 _) (by omega)
      (fun x hx => (ha.ok _ x hx).id) (by rw [hidp]; exact hp1) (by rw [hidp])
    rw [hidp] at hpl
    have hev' : ({ st.queue with header := { st.queue.header with seqNum := a.seq + 1 } } :
        EventQueue C).events.length = a.capEvents := by
      show st.queue.events.length = _
      rw [hevs, hm.capEvents]
    have hcap' : (st.book.getTree p.side).leafNodes.length = a.cap p.side := by
      rw [hown, hm.cap]
    rw [hev', hcap'] at hpl
    rw [hos]
    generalize hrp : refPost p.side (a.cap p.side) (a.capEvents - (a.events ++ r.events).length)
      (a.orders p.side) ⟨mkOrderId p.side p.limitPrice a.seq, toPost, p.callbackInfo⟩ = rp at hpl
    cases rp with
    | error e => simp only at hpl ⊢; rw [hpl]; rfl
    | ok po =>
      simp only at hpl ⊢
      by_cases hpo : po.posted = true
      · rw [if_pos hpo] at hpl ⊢
        obtain ⟨h, s', q', e1, e2, e3, e4, e5, s'', e6, e7, e8⟩ := hpl
        have htb : toPost ≤ r.base := htoPost ▸ Nat.min_le_right _ _
        have hw : worth p.side toPost p.limitPrice ≤ r.quote := worth_le_affordable (htoPost ▸ Nat.min_le_left _ _)
        rw [e1, ok_bind]
        simp only
        rw [e6, ok_bind, subU_ok htb, ok_bind, fp32Value_eq (by omega)]
        simp only
        rw [subU_ok hw, ok_bind, subU_ok (by omega), ok_bind, subU_ok (by omega), ok_bind, ok_bind]
        refine ⟨_, rfl, ?_⟩
        apply MRep.mk' p.side
        · exact (hf1 _ _ _ _).1
        · exact (hf1 _ _ _ _).2
        · simp only [getTree_setTree]
          have : ∀ a : RefMarket C, ∀ evs, ({ a.setOrders p.side po.own with events := evs } :
              RefMarket C).orders p.side = po.own := by intro a evs; cases p.side <;> rfl
          rw [this]; exact e7
        · simp only [getTree_opp_setTree]
          have : ∀ evs evs' n, ({ ({ a.setOrders p.side.opposite r.opp with events := evs, seq := n } :
              RefMarket C).setOrders p.side po.own with events := evs' } :
              RefMarket C).orders p.side.opposite = r.opp := by intro evs evs' n; cases p.side <;> rfl
          rw [this]; exact g2
        · simp only [getTree_setTree]
          rw [e8.1, hcap']; cases p.side <;> rfl
        · simp only [getTree_opp_setTree]
          rw [hsz.1, hm.cap]; cases p.side <;> rfl
        · exact e2
        · refine e3.trans ?_; cases p.side <;> rfl
        · rw [e4]; cases p.side <;> rfl
      · rw [if_neg hpo] at hpl ⊢
        rw [hpl.1, ok_bind]
        simp only
        rw [hnp, ok_bind]
        refine ⟨_, rfl, ?_⟩
        apply MRep.mk' p.side
        · exact (hf0 _ _).1
        · exact (hf0 _ _).2
        · show PRep p.side (st.book.getTree p.side) _
          rw [hown]
          have : ∀ n, ({ a.setOrders p.side.opposite r.opp with events := a.events ++ r.events, seq := n } :
              RefMarket C).orders p.side = a.orders p.side := by intro n; cases p.side <;> rfl
          rw [this]; exact hm.tree p.side
        · have : ∀ n, ({ a.setOrders p.side.opposite r.opp with events := a.events ++ r.events, seq := n } :
              RefMarket C).orders p.side.opposite = r.opp := by intro n; cases p.side <;> rfl
          rw [this]; exact g2
        · show (st.book.getTree p.side).leafNodes.length = _
          rw [hown, hm.cap]; cases p.side <;> rfl
        · show (st.book.getTree p.side.opposite).leafNodes.length = _
          rw [hsz.1, hm.cap]; cases p.side <;> rfl
        · exact QRepR.setSeq g3 _
        · rw [hev']; cases p.side <;> rfl
        · rfl

omit [CallbackInfo C] in
theorem filter_ne_split {side : Side} {L R : List (Order C)} {o : Order C}
    (h : (L ++ o :: R).Pairwise side.before) :
    (L ++ o :: R).filter (fun x => x.id != o.id) = L ++ R := by
  rw [List.pairwise_append, List.pairwise_cons] at h
  obtain ⟨h1, ⟨h2, h3⟩, h4⟩ := h
  rw [List.filter_append, List.filter_cons]
  simp only [bne_self_eq_false, Bool.false_eq_true, if_false]
  congr 1
  · rw [List.filter_eq_self]
    intro x hx
    have := h4 x hx o (by simp)
    rw [bne_iff_ne]
    cases side <;> simp only [Side.before] at this <;> omega
  · rw [List.filter_eq_self]
    intro x hx
    have := h2 x hx
    rw [bne_iff_ne]
    cases side <;> simp only [Side.before] at this <;> omega

omit [CallbackInfo C] in
/-- Removal of an id from a side. -/
theorem remove_refines {side : Side} {s : Slab C} {l : List (Order C)} (hp : PRep side s l) (id : Nat) :
    match l.find? (fun o => o.id == id) with
    | none => s.removeByKey id = .ok (none, s) ∨ s.removeByKey id = .error .panic
    | some o => o.id = id ∧ o ∈ l ∧ ∃ s', s.removeByKey id = .ok (some (⟨o.id, o.qty⟩, o.cb), s') ∧
        PRep side s' (l.filter (fun o => o.id != id)) ∧ SameSize s s' := by
  cases hf : l.find? (fun o => o.id == id) with
  | none =>
    rw [List.find?_eq_none] at hf
    simp only
    rcases SRep.remove_missing hp (key := id) (fun o ho => by
      have := hf o (mem_prio.1 ho); simpa using this) with h | h
    · exact Or.inl h
    · exact Or.inr h.2.2
  | some o =>
    simp only
    have hid : o.id = id := by simpa using List.find?_some hf
    have hmem := List.mem_of_find?_eq_some hf
    subst hid
    obtain ⟨L, R, rfl⟩ := List.append_of_mem hmem
    rw [filter_ne_split hp.sorted]
    exact ⟨rfl, hmem, hp.removeAny⟩

omit [CallbackInfo C] in
theorem MRep.setSide {m : Market C} {a : RefMarket C} (hm : MRep m a) {side : Side} {s' : Slab C} {l}
    (h1 : PRep side s' l) (h2 : SameSize (m.book.getTree side) s') :
    MRep { m with book := m.book.setTree side s' } (a.setOrders side l) := by
  have hf := a.setOrders_fields side l
  apply MRep.mk' side
  · rw [hf.1]; exact hm.minBase
  · rw [hf.2.1]; exact hm.tick
  · simpa using h1
  · simpa using hm.tree side.opposite
  · rw [hf.2.2.2.2.2]; simpa [h2.1] using hm.cap side
  · rw [hf.2.2.2.2.2]; simpa using hm.cap side.opposite
  · rw [hf.2.2.2.2.1]; exact hm.queue
  · rw [hf.2.2.1]; exact hm.capEvents
  · rw [hf.2.2.2.1]; exact hm.seq

/-- All values a cancel could report fit. -/
def FitsAll (a : RefMarket C) : Prop := ∀ side, ∀ o ∈ a.orders side, worth .ask o.qty o.price < 2 ^ 64

omit [CallbackInfo C] in
theorem cancelOrder_refines {m : Market C} {a : RefMarket C} (hm : MRep m a) (ha : FitsAll a) (id : Nat) :
    match a.cancelOrder id with
    | .error e => m.cancelOrder id = .error e ∨ (e = .ao .orderNotFound ∧ m.cancelOrder id = .error .panic)
    | .ok (s, a') => ∃ m', m.cancelOrder id = .ok (s, m') ∧ MRep m' a' := by
  unfold RefMarket.cancelOrder RefMarket.cancel1 Market.cancelOrder Market.cancelIn
  rw [sideOfId_eq]
  have hr := remove_refines (hm.tree (sideOfId id)) id
  cases hf : (a.orders (sideOfId id)).find? (fun o => o.id == id) with
  | none =>
    rw [hf] at hr
    simp only at hr ⊢
    rcases hr with hr | hr
    · left; rw [hr]; rfl
    · right; rw [hr]; exact ⟨trivial, rfl⟩
  | some o =>
    rw [hf] at hr
    simp only at hr ⊢
    obtain ⟨hid, hmem, s', h1, h2, h3⟩ := hr
    have hpr : LeafNode.price ⟨o.id, o.qty⟩ = o.price := by
      unfold LeafNode.price
      exact priceFromKey_eq ((hm.tree _).id_lt o hmem)
    rw [h1, ok_bind]
    simp only
    rw [hpr, fp32MulFloor_eq (ha _ o hmem), ok_bind]
    exact ⟨_, rfl, hm.setSide h2 h3⟩

omit [CallbackInfo C] in
theorem massCancel_refines (ids : List Nat) : ∀ {m : Market C} {a : RefMarket C}, MRep m a → FitsAll a →
    ∀ b q, match RefMarket.massCancelFrom ids b q a with
    | .error e => Market.massCancelLoop ids b q m.book = .error e ∨
        (e = .ao .orderNotFound ∧ Market.massCancelLoop ids b q m.book = .error .panic)
    | .ok (b', q', a') => ∃ book', Market.massCancelLoop ids b q m.book = .ok (b', q', book') ∧
        MRep { m with book := book' } a' := by
  induction ids with
  | nil => intro m a hm ha b q; exact ⟨m.book, rfl, hm⟩
  | cons id ids ih =>
    intro m a hm ha b q
    unfold RefMarket.massCancelFrom RefMarket.cancel1 Market.massCancelLoop
    rw [sideOfId_eq]
    have hr := remove_refines (hm.tree (sideOfId id)) id
    cases hf : (a.orders (sideOfId id)).find? (fun o => o.id == id) with
    | none =>
      rw [hf] at hr
      simp only at hr ⊢
      rcases hr with hr | hr
      · left; rw [hr]; rfl
      · right; rw [hr]; exact ⟨trivial, rfl⟩
    | some o =>
      rw [hf] at hr
      simp only at hr ⊢
      obtain ⟨hid, hmem, s', h1, h2, h3⟩ := hr
      have hpr : LeafNode.price ⟨o.id, o.qty⟩ = o.price := by
        unfold LeafNode.price
        exact priceFromKey_eq ((hm.tree _).id_lt o hmem)
      rw [h1, ok_bind]
      simp only
      rw [hpr, fp32MulFloor_eq (ha _ o hmem)]
      have hfit : FitsAll (a.setOrders (sideOfId id) ((a.orders (sideOfId id)).filter (fun o => o.id != id))) := by
        intro side
        apply side_cases (P := fun side => ∀ o ∈ (a.setOrders (sideOfId id)
          ((a.orders (sideOfId id)).filter (fun o => o.id != id))).orders side,
            worth .ask o.qty o.price < 2 ^ 64) (sideOfId id)
        · intro x hx
          rw [RefMarket.orders_setOrders] at hx
          exact ha _ x (List.mem_of_mem_filter hx)
        · intro x hx
          rw [RefMarket.orders_opp_setOrders] at hx
          exact ha _ x hx
      by_cases hov : b + o.qty < 2 ^ 64 ∧ worth .ask o.qty o.price + q < 2 ^ 64
      · rw [if_pos hov, addU64_ok hov.1, ok_bind]
        simp only [unwrap, ok_bind]
        rw [addU64_ok hov.2, ok_bind]
        exact ih (m := { m with book := m.book.setTree (sideOfId id) s' }) (hm.setSide h2 h3) hfit _ _
      · rw [if_neg hov]
        left
        by_cases hb : b + o.qty < 2 ^ 64
        · rw [addU64_ok hb, ok_bind]
          simp only [unwrap, ok_bind]
          have : addU64 (worth .ask o.qty o.price) q = .error .panic := by
            unfold addU64
            exact if_neg (fun h => hov ⟨hb, h⟩)
          rw [this]; rfl
        · have : addU64 b o.qty = .error .panic := by
            unfold addU64
            exact if_neg hb
          rw [this]; rfl

/-- Every instruction of the model computes what the reference engine computes. The only freedom is
that a cancellation of an id that is not resting may panic instead of returning `OrderNotFound`. -/
theorem exec_refines {m : Market C} {a : RefMarket C} (hm : MRep m a) (ha : RefInv a)
    (i : Instr C) (hi : i.Ok) :
    match a.exec i with
    | .error e => m.exec i = .error e ∨ (e = .ao .orderNotFound ∧ m.exec i = .error .panic)
    | .ok (s, a') => ∃ m', m.exec i = .ok (s, m') ∧ MRep m' a' := by
  have hfit : FitsAll a := fun side o ho => (ha.ok side o ho).worth
  cases i with
  | newOrder p =>
    have := newOrder_refines hm ha p hi
    unfold RefMarket.exec Market.exec
    cases h : a.newOrder p with
    | error e => rw [h] at this; simp only at this; simp only [h, Except.map]; left; rw [this]; rfl
    | ok x =>
      rw [h] at this
      obtain ⟨m', h1, h2⟩ := this
      simp only [h, Except.map]; rw [h1]
      exact ⟨m', rfl, h2⟩
  | cancelOrder id =>
    have := cancelOrder_refines hm hfit id
    unfold RefMarket.exec Market.exec
    cases h : a.cancelOrder id with
    | error e =>
      rw [h] at this; simp only at this
      rcases this with h' | ⟨h', h''⟩
      · simp only [h, Except.map]; left; rw [h']; rfl
      · simp only [h, Except.map]; right; rw [h'']; exact ⟨h', rfl⟩
    | ok x =>
      rw [h] at this
      obtain ⟨m', h1, h2⟩ := this
      simp only [h, Except.map]; rw [h1]
      exact ⟨m', rfl, h2⟩
  | massCancelOrders ids =>
    have := massCancel_refines ids hm hfit 0 0
    unfold RefMarket.exec Market.exec RefMarket.massCancelOrders Market.massCancelOrders
    cases h : RefMarket.massCancelFrom ids 0 0 a with
    | error e =>
      rw [h] at this; simp only at this
      rcases this with h' | ⟨h', h''⟩
      · simp only [h, Except.map]; left; rw [h']; rfl
      · simp only [h, Except.map]; right; rw [h'']; exact ⟨h', rfl⟩
    | ok x =>
      obtain ⟨b', q', a'⟩ := x
      rw [h] at this
      obtain ⟨book', h1, h2⟩ := this
      simp only [h, Except.map]; rw [h1]
      exact ⟨_, rfl, h2⟩
  | consumeEvents n =>
    unfold RefMarket.exec Market.exec Market.consumeEvents
    obtain ⟨q', h1, h2, h3, h4, h5⟩ := hm.queue.popN n
    simp only
    rw [h1]
    exact ⟨_, rfl, hm.minBase, hm.tick, hm.tree, hm.cap, h2, by rw [← hm.capEvents]; exact congrArg _ h3,
      by rw [← hm.seq]; exact h5⟩

end AOB
