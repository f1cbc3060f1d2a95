import Verif.Props.Depth
import Verif.Props.Place
import Verif.Props.Economy
import Verif.Proofs.Compete
/-
C99: what a maker gets from a taker is determined by what is served before it.
-/
namespace AOB
variable {C : Type} [CallbackInfo C] {m m' : Market C} {p : NewOrderParams C} {s : OrderSummary}

omit [CallbackInfo C] in
theorem greedy_at : ∀ (l : List (Order C)) (b : Nat) (o : Order C), (l.map Order.id).Nodup → o ∈ l →
    (((greedy b l).filter (fun x => x.1.id == o.id)).map Prod.snd).sum =
      min o.qty (b - sumQty (l.takeWhile (fun x => x.id != o.id))) := by
  have gone : ∀ (l : List (Order C)) (b : Nat) (o : Order C), o.id ∉ l.map Order.id →
      (greedy b l).filter (fun x => x.1.id == o.id) = [] := by
    intro l
    induction l with
    | nil => intro b o _; rfl
    | cons y l ih =>
      intro b o h
      rw [greedy]
      split
      · rfl
      · rw [List.filter_cons_of_neg, ih _ _ (fun hm => h (by simp only [List.map_cons, List.mem_cons]; exact .inr hm))]
        simp only [List.map_cons, List.mem_cons, not_or] at h
        simp only [beq_iff_eq]
        exact fun e => h.1 e.symm
  intro l
  induction l with
  | nil => intro b o _ h; cases h
  | cons y l ih =>
    intro b o hn ho
    rw [List.map_cons, List.nodup_cons] at hn
    rw [greedy]
    by_cases hy : y.id = o.id
    · have hyo : y = o := by
        rcases List.mem_cons.1 ho with rfl | h
        · rfl
        · exact absurd (hy ▸ List.mem_map_of_mem h) hn.1
      subst hyo
      rw [List.takeWhile_cons_of_neg (by simp)]
      split
      · rename_i hb; subst hb; simp
      · rw [List.filter_cons_of_pos (by simp), gone _ _ _ hn.1]
        simp [sumQty]
    · have ho : o ∈ l := by
        rcases List.mem_cons.1 ho with rfl | h
        · exact absurd rfl hy
        · exact h
      rw [List.takeWhile_cons_of_pos (by simpa using hy)]
      split
      · rename_i hb; subst hb; simp
      · rw [List.filter_cons_of_neg (by simpa using hy), ih _ _ hn.2 ho]
        simp only [sumQty, List.map_cons, List.sum_cons]
        omega

omit [CallbackInfo C] in
theorem before_accepted {side : Side} {limit : Nat} {o : Order C} (hacc : side.accepts limit o.price = true) :
    ∀ {l : List (Order C)}, Ordered side l → o ∈ l →
      (l.filter (fun x => side.accepts limit x.price)).takeWhile (fun x => x.id != o.id) = l.takeWhile (fun x => x.id != o.id) := by
  intro l
  induction l with
  | nil => intro _ h; cases h
  | cons y l ih =>
    intro hs ho
    unfold Ordered at hs
    rw [List.pairwise_cons] at hs
    by_cases hy : y.id = o.id
    · have : (fun x : Order C => side.accepts limit x.price) y = true := by
        have : y.price = o.price := by unfold Order.price; rw [hy]
        show side.accepts limit y.price = true
        rw [this]; exact hacc
      rw [List.filter_cons_of_pos (p := fun x : Order C => side.accepts limit x.price) this, List.takeWhile_cons_of_neg (by simpa using hy), List.takeWhile_cons_of_neg (by simpa using hy)]
    · have hm : o ∈ l := by
        rcases List.mem_cons.1 ho with rfl | h
        · exact absurd rfl hy
        · exact h
      have : (fun x : Order C => side.accepts limit x.price) y = true := by
        have := hs.1 o hm
        show side.accepts limit y.price = true
        unfold Side.accepts at hacc ⊢
        cases side <;> simp only [decide_eq_true_eq] at * <;> omega
      rw [List.filter_cons_of_pos (p := fun x : Order C => side.accepts limit x.price) this, List.takeWhile_cons_of_pos (by simpa using hy), List.takeWhile_cons_of_pos (by simpa using hy),
        ih hs.2 hm]

/-- C99: under the conditions of C87 a resting order whose price the taker accepts trades what the taker has left after all that
is served before, as far as the order goes. -/
theorem C99_share (h : Reachable m) (hp : (Instr.newOrder p).Ok) (he : m.newOrder p = .ok (s, m'))
    (hpost : p.postOnly = false)
    (hown : p.selfTradeBehavior ≠ .decrementTake → ∀ o ∈ acceptable m p,
      CallbackInfo.asCallbackId p.callbackInfo ≠ CallbackInfo.asCallbackId o.cb)
    (hunit : p.side = .bid ∨ 2 ^ 32 ≤ p.limitPrice)
    (hlimit : (greedy p.maxBaseQty (acceptable m p)).length ≤ p.matchLimit)
    (hcap : costOf (greedy p.maxBaseQty (acceptable m p)) ≤ p.maxQuoteQty)
    {o : Order C} (ho : o ∈ resting m p.side.opposite) (hacc : p.side.accepts p.limitPrice o.price = true) :
    traded (emitted m m') o = min o.qty (p.maxBaseQty - sumQty (before m p.side.opposite o.id)) := by
  have h1 := C87_fills h hp he hpost hown hunit hlimit hcap
  obtain ⟨_, _, _, _, _, _, _, _, hnd, hord, _⟩ := best_view h hp he
  have hnd' : ((acceptable m p).map Order.id).Nodup := (List.filter_sublist.map _).nodup hnd
  have h2 := greedy_at (acceptable m p) p.maxBaseQty o hnd' (List.mem_filter.2 ⟨ho, hacc⟩)
  have h3 : (acceptable m p).takeWhile (fun x => x.id != o.id) = before m p.side.opposite o.id :=
    before_accepted hacc hord ho
  rw [h3] at h2
  rw [← h2]
  have h4 := congrArg (fun l => ((l.filter (fun x : Nat × Nat × Nat => x.1 == o.id)).map (fun x => x.2.1)).sum) h1
  simp only [List.filter_map, List.map_map] at h4
  have e1 : fillsOf o.id (emitted m m') = (fills (emitted m m')).filter (fun e => e.id == o.id) := by
    unfold fillsOf fills
    rw [List.filter_filter]
    congr 1
    funext e
    rw [Bool.and_comm]
  unfold traded sumBase
  rw [e1]
  exact h4

/-- C99: so of two resting orders of the same size, in whatever markets, the one with less before it gets no less of the same
order. -/
theorem C99_less_before_gets_more {m₁ m₂ m₁' m₂' : Market C} {s₁ s₂ : OrderSummary} (h₁ : Reachable m₁) (h₂ : Reachable m₂)
    (hp : (Instr.newOrder p).Ok) (e₁ : m₁.newOrder p = .ok (s₁, m₁')) (e₂ : m₂.newOrder p = .ok (s₂, m₂'))
    (hpost : p.postOnly = false)
    (hown : ∀ m ∈ [m₁, m₂], p.selfTradeBehavior ≠ .decrementTake → ∀ o ∈ acceptable m p,
      CallbackInfo.asCallbackId p.callbackInfo ≠ CallbackInfo.asCallbackId o.cb)
    (hunit : p.side = .bid ∨ 2 ^ 32 ≤ p.limitPrice)
    (hlimit : ∀ m ∈ [m₁, m₂], (greedy p.maxBaseQty (acceptable m p)).length ≤ p.matchLimit)
    (hcap : ∀ m ∈ [m₁, m₂], costOf (greedy p.maxBaseQty (acceptable m p)) ≤ p.maxQuoteQty)
    {o₁ o₂ : Order C} (ho₁ : o₁ ∈ resting m₁ p.side.opposite) (ho₂ : o₂ ∈ resting m₂ p.side.opposite)
    (hacc₁ : p.side.accepts p.limitPrice o₁.price = true) (hacc₂ : p.side.accepts p.limitPrice o₂.price = true)
    (hq : o₂.qty ≤ o₁.qty)
    (hb : sumQty (before m₁ p.side.opposite o₁.id) ≤ sumQty (before m₂ p.side.opposite o₂.id)) :
    traded (emitted m₂ m₂') o₂ ≤ traded (emitted m₁ m₁') o₁ := by
  rw [C99_share h₁ hp e₁ hpost (hown _ (by simp)) hunit (hlimit _ (by simp)) (hcap _ (by simp)) ho₁ hacc₁,
    C99_share h₂ hp e₂ hpost (hown _ (by simp)) hunit (hlimit _ (by simp)) (hcap _ (by simp)) ho₂ hacc₂]
  omega

omit [CallbackInfo C] in
theorem before_append {side : Side} {o : Order C} : ∀ {L R : List (Order C)}, ((L ++ o :: R).map Order.id).Nodup →
    resting m side = L ++ o :: R → before m side o.id = L := by
  intro L R hnd hr
  unfold before
  rw [hr, List.takeWhile_append_of_pos]
  · rw [List.takeWhile_cons_of_neg (by simp), List.append_nil]
  · intro x hx
    rw [bne_iff_ne]
    intro he
    rw [List.map_append, List.nodup_append] at hnd
    exact hnd.2.2 _ (List.mem_map_of_mem hx) _ (List.mem_map_of_mem (List.mem_cons_self ..)) he

/-- C99: so a queue of orders served one after the other trades together the smaller of what they are together and what the taker
has left before the first of them: how it is divided into orders, and among whom, does not matter. -/
theorem C99_block (h : Reachable m) (hp : (Instr.newOrder p).Ok) (he : m.newOrder p = .ok (s, m'))
    (hpost : p.postOnly = false)
    (hown : p.selfTradeBehavior ≠ .decrementTake → ∀ o ∈ acceptable m p,
      CallbackInfo.asCallbackId p.callbackInfo ≠ CallbackInfo.asCallbackId o.cb)
    (hunit : p.side = .bid ∨ 2 ^ 32 ≤ p.limitPrice)
    (hlimit : (greedy p.maxBaseQty (acceptable m p)).length ≤ p.matchLimit)
    (hcap : costOf (greedy p.maxBaseQty (acceptable m p)) ≤ p.maxQuoteQty)
    {ahead block behind : List (Order C)} (ho : resting m p.side.opposite = ahead ++ (block ++ behind))
    (hacc : ∀ o ∈ block, p.side.accepts p.limitPrice o.price = true) :
    (block.map (traded (emitted m m'))).sum = min (sumQty block) (p.maxBaseQty - sumQty ahead) := by
  obtain ⟨_, _, _, _, _, _, _, _, hnd, _⟩ := best_view h hp he
  induction block generalizing ahead with
  | nil => simp [sumQty]
  | cons o l ih =>
    have h1 := C99_share h hp he hpost hown hunit hlimit hcap (o := o) (by rw [ho]; simp) (hacc o (by simp))
    rw [before_append (by rw [← List.cons_append, ← ho]; exact hnd) (by rw [ho, List.cons_append])] at h1
    have h2 := ih (ahead := ahead ++ [o]) (by rw [ho]; simp) (fun x hx => hacc x (by simp [hx]))
    rw [List.map_cons, List.sum_cons, h1, h2]
    simp only [sumQty, List.map_append, List.map_cons, List.map_nil, List.sum_append, List.sum_cons, List.sum_nil]
    omega

/-- C99: waiting pays. As long as no better price is offered on its side, an order is served with no less of the same taker after any
number of transactions than it would have been before, as far as the order still goes. -/
theorem C99_waiting {c is} (h : ReachBy c is m) {js : List (Instr C)} (hlen : is.length + js.length ≤ 2 ^ 63)
    (hj : ∀ i ∈ js, i.Ok) {m₁' m₂' : Market C} {s₁ s₂ : OrderSummary}
    (hp : (Instr.newOrder p).Ok) (e₁ : m.newOrder p = .ok (s₁, m₁')) (e₂ : (m.run js).newOrder p = .ok (s₂, m₂'))
    (hpost : p.postOnly = false)
    (hown : ∀ x ∈ [m, m.run js], p.selfTradeBehavior ≠ .decrementTake → ∀ o ∈ acceptable x p,
      CallbackInfo.asCallbackId p.callbackInfo ≠ CallbackInfo.asCallbackId o.cb)
    (hunit : p.side = .bid ∨ 2 ^ 32 ≤ p.limitPrice)
    (hlimit : ∀ x ∈ [m, m.run js], (greedy p.maxBaseQty (acceptable x p)).length ≤ p.matchLimit)
    (hcap : ∀ x ∈ [m, m.run js], costOf (greedy p.maxBaseQty (acceptable x p)) ≤ p.maxQuoteQty)
    {o o' : Order C} (ho : o ∈ resting m p.side.opposite) (ho' : o' ∈ resting (m.run js) p.side.opposite)
    (hid : o'.id = o.id) (hacc : p.side.accepts p.limitPrice o.price = true)
    (hbest : ∀ x ∈ resting (m.run js) p.side.opposite, ¬ p.side.opposite.worse o.price x.price) :
    min o'.qty (traded (emitted m m₁') o) ≤ traded (emitted (m.run js) m₂') o' := by
  have hacc' : p.side.accepts p.limitPrice o'.price = true := by
    have : o'.price = o.price := by unfold Order.price; rw [hid]
    rw [this]; exact hacc
  rw [C99_share h.reachable hp e₁ hpost (hown _ (by simp)) hunit (hlimit _ (by simp)) (hcap _ (by simp)) ho hacc,
    C99_share (h.append hj).reachable hp e₂ hpost (hown _ (by simp)) hunit (hlimit _ (by simp)) (hcap _ (by simp)) ho' hacc', hid]
  have hpl := (C88_place h hlen hj ho ho' hid).2.1
  have e1 : ahead (m.run js) p.side.opposite o.id = before (m.run js) p.side.opposite o.id := by
    unfold ahead
    rw [List.filter_eq_self]
    intro x hx
    obtain ⟨hk', _⟩ := (h.append hj).known
    have hs' := hk'.inv.sorted p.side.opposite
    rw [← hk'.rep.resting] at hs'
    rw [← hid, mem_before hs' ho'] at hx
    have hb := hbest x hx.1
    have hlt := hx.2
    rw [beq_iff_eq]
    clear hs'
    generalize p.side.opposite = sd at hlt hb
    unfold Order.price Side.worse at *
    cases sd <;> simp only [Side.before] at * <;> rw [hid] at hlt <;> omega
  have e2 : sumQty (ahead m p.side.opposite o.id) ≤ sumQty (before m p.side.opposite o.id) := by
    exact sum_sublist (List.filter_sublist.map _)
  rw [e1] at hpl
  omega

/-! ### Concrete cases -/

/-- User 9 buys 14; 12 are served before the ask of user 2, which trades 2 of its 6. -/
example := C99_share demo_reachable (p := demoOrder .bid 14 11 9) (by decide) demo_depth_buy rfl (by decide +kernel)
  (.inl rfl) (by decide +kernel) (by decide +kernel) (o := ⟨11 * 2 ^ 96 + 1, 6, ⟨2, 7⟩⟩) (by decide +kernel) (by decide +kernel)
example : sumQty (before demo .ask (11 * 2 ^ 96 + 1)) = 12 ∧
    traded (emitted demo (demo.step (.newOrder (demoOrder .bid 14 11 9)))) ⟨11 * 2 ^ 96 + 1, 6, ⟨2, 7⟩⟩ = 2 := by decide +kernel

/-- The asks of users 3 and 2 trade together 3 of the 8 that are bought. -/
example := C99_block demo_reachable (p := demoOnly .bid 8 11 9) (by decide) demo_buy8 rfl (by decide +kernel) (.inl rfl)
  (by decide +kernel) (by decide +kernel) (ahead := [⟨10 * 2 ^ 96, 5, ⟨1, 7⟩⟩])
  (block := [⟨10 * 2 ^ 96 + 2, 7, ⟨3, 7⟩⟩, ⟨11 * 2 ^ 96 + 1, 6, ⟨2, 7⟩⟩]) (behind := []) (by decide +kernel) (by decide +kernel)

/-- Without the ask of user 3, that of user 2 trades 3 of the 8 that are bought; with it none. -/
example := C99_less_before_gets_more demoLess_reachBy.reachable demo_reachable (p := demoOnly .bid 8 11 9) (by decide)
  demoLess_buy8 demo_buy8 rfl (by decide +kernel) (.inl rfl) (by decide +kernel) (by decide +kernel)
  (o₁ := ⟨11 * 2 ^ 96 + 1, 6, ⟨2, 7⟩⟩) (o₂ := ⟨11 * 2 ^ 96 + 1, 6, ⟨2, 7⟩⟩) (by decide +kernel) (by decide +kernel)
  (by decide +kernel) (by decide +kernel) (by decide) (by decide +kernel)

/-- After user 1 has cancelled, the ask of user 3 trades all its 7 instead of 3. -/
example := C99_waiting demo_reachBy (js := [.cancelOrder (10 * 2 ^ 96)]) (by decide) (by decide) (p := demoOnly .bid 8 11 9)
  (by decide) demo_buy8
  (show (demo.run [.cancelOrder (10 * 2 ^ 96)]).newOrder (demoOnly .bid 8 11 9) = .ok (⟨none, 8, 81, 0⟩,
    (demo.run [.cancelOrder (10 * 2 ^ 96)]).step (.newOrder (demoOnly .bid 8 11 9))) by decide +kernel)
  rfl (by decide +kernel) (.inl rfl) (by decide +kernel) (by decide +kernel)
  (o := ⟨10 * 2 ^ 96 + 2, 7, ⟨3, 7⟩⟩) (o' := ⟨10 * 2 ^ 96 + 2, 7, ⟨3, 7⟩⟩) (by decide +kernel) (by decide +kernel) rfl
  (by decide +kernel) (fun x hx => (by decide +kernel : ∀ x ∈ resting (demo.run [.cancelOrder (10 * 2 ^ 96)]) .ask,
    ¬ x.price < Order.price (⟨10 * 2 ^ 96 + 2, 7, ⟨3, 7⟩⟩ : Order DemoCb)) x hx)

end AOB
