import Verif.Proofs.Units
import Verif.Spec.Demo
/-
C94: the unit in which the quote currency is counted does not matter, as long as prices are whole.
-/
namespace AOB
variable {C : Type} [CallbackInfo C] {k : Nat} {c : Config} {is : List (Instr C)} {x x' : C}

/-- What an instruction that is expressible on the market is on the reference market. -/
theorem Expressible.ref {m : Market C} {a : RefMarket C} (hm : MRep m a) (ha : RefInv a) {i : Instr C} (hi : i.Ok)
    (h : Expressible k m i) : a.Expressible k i := by
  cases i with
  | massCancelOrders ids =>
    intro s a' he
    have r := exec_refines hm ha (.massCancelOrders ids) hi
    simp only [RefMarket.exec, he, Except.map, Market.exec] at r
    obtain ⟨m', h1, -⟩ := r
    cases hx : m.massCancelOrders ids with
    | error e => rw [hx] at h1; cases h1
    | ok y =>
      rw [hx] at h1
      cases h1
      exact h _ _ hx
  | _ => trivial

theorem run_units (hk : 0 < k) : ∀ (is : List (Instr C)) {m m' : Market C} {a : RefMarket C}, MRep m a → RefInv a →
    MRep m' (a.times k) → RefInv (a.times k) → a.Whole → (∀ i ∈ is, i.Ok) → (∀ i ∈ is, (i.times k).Ok) →
    (∀ i ∈ is, i.Whole) → Along (Expressible k) m is →
    ∃ b : RefMarket C, MRep (m.run is) b ∧ RefInv b ∧ MRep (m'.run (is.map (Instr.times k))) (b.times k) ∧
      RefInv (b.times k) ∧ b.Whole
  | [], _, _, a, h1, h2, h3, h4, h5, _, _, _, _ => ⟨a, h1, h2, h3, h4, h5⟩
  | i :: is, m, m', a, h1, h2, h3, h4, h5, o, o', w, e => by
    have hi := o i List.mem_cons_self
    obtain ⟨s1, s2⟩ := step_refines h1 h2 hi
    obtain ⟨t1, t2⟩ := step_refines h3 h4 (o' i List.mem_cons_self)
    obtain ⟨u1, u2⟩ := step_times hk a h5 (w i List.mem_cons_self) (e.1.ref h1 h2 hi)
    rw [u2] at t1 t2
    exact run_units hk is s1 s2 t1 t2 u1 (fun j hj => o j (List.mem_cons_of_mem _ hj))
      (fun j hj => o' j (List.mem_cons_of_mem _ hj)) (fun j hj => w j (List.mem_cons_of_mem _ hj)) e.2

theorem units_known (hk : 0 < k) (v : c.Valid) (o : ∀ i ∈ is, i.Ok) (o' : ∀ i ∈ is, (i.times k).Ok)
    (w : ∀ i ∈ is, i.Whole) (he : Along (Expressible k) (c.market x) is) :
    ∃ b : RefMarket C, MRep ((c.market x).run is) b ∧ RefInv b ∧
      MRep (((c.times k).market x').run (is.map (Instr.times k))) (b.times k) ∧ RefInv (b.times k) ∧ b.Whole := by
  obtain ⟨h1, h2⟩ := create_refines v x
  have v' : (c.times k).Valid := ⟨v.minBase, Nat.mul_pos v.tick hk, v.bids, v.asks, v.events⟩
  obtain ⟨h3, h4⟩ := create_refines v' x'
  have e : ((c.times k).ref : RefMarket C) = (c.ref : RefMarket C).times k := rfl
  rw [e] at h3 h4
  exact run_units hk is h1 h2 h3 h4 (fun side => by cases side <;> exact fun _ h => by cases h) o o' w he

/-- C94. Let the quote currency be counted in a unit of which `k` make up an old one: the tick size, all limit prices and
all quote caps are multiplied by `k`, and so is the price in every id that is to be cancelled. Then the same orders rest, at
`k` times the price; the same trades have happened, for `k` times the quote. All prices of orders that may be posted must
be whole. Numbers must fit in 64 bits in the new unit: those of the instructions, and the quote totals of mass cancellations. -/
theorem C94_unit_of_quote (hk : 0 < k) (v : c.Valid) (o : ∀ i ∈ is, i.Ok) (o' : ∀ i ∈ is, (i.times k).Ok)
    (w : ∀ i ∈ is, i.Whole) (he : Along (Expressible k) (c.market x) is) :
    (∀ side, resting (((c.times k).market x').run (is.map (Instr.times k))) side =
      (resting ((c.market x).run is) side).map (Order.times k)) ∧
    pending (((c.times k).market x').run (is.map (Instr.times k))) =
      (pending ((c.market x).run is)).map (Event.times k) ∧
    (((c.times k).market x').run (is.map (Instr.times k))).queue.header.seqNum =
      ((c.market x).run is).queue.header.seqNum := by
  obtain ⟨b, h1, -, h3, -, -⟩ := units_known (x' := x') hk v o o' w he
  refine ⟨fun side => ?_, ?_, ?_⟩
  · rw [h3.resting, h1.resting, orders_times]
  · rw [h3.pending, h1.pending]; rfl
  · rw [h3.seq, h1.seq]; rfl

/-- C94. And after such a history every further instruction has the same answer in the new unit: it succeeds in both or
fails in both, with the same base quantities and `k` times the quote. It fails for the same reason, except that a mass
cancellation may be refused for another one of its ids, and that a missing order may be met by a panic (C22). -/
theorem C94_same_answer (hk : 0 < k) (v : c.Valid) (o : ∀ i ∈ is, i.Ok) (o' : ∀ i ∈ is, (i.times k).Ok)
    (w : ∀ i ∈ is, i.Whole) (he : Along (Expressible k) (c.market x) is) {i : Instr C} (oi : i.Ok) (oi' : (i.times k).Ok)
    (wi : i.Whole) (hi : Expressible k ((c.market x).run is) i) :
    (∃ s m m', ((c.market x).run is).exec i = .ok (s, m) ∧
      (((c.times k).market x').run (is.map (Instr.times k))).exec (i.times k) = .ok (s.map (OrderSummary.times k), m')) ∨
    (∃ e e', ((c.market x).run is).exec i = .error e ∧
      (((c.times k).market x').run (is.map (Instr.times k))).exec (i.times k) = .error e' ∧
      (e = e' ∨ (∃ ids, i = .massCancelOrders ids) ∨ e = .ao .orderNotFound ∧ e' = .panic ∨
        e = .panic ∧ e' = .ao .orderNotFound)) := by
  obtain ⟨b, h1, h2, h3, h4, h5⟩ := units_known (x' := x') hk v o o' w he
  have r := exec_refines h1 h2 i oi
  have r' := exec_refines h3 h4 (i.times k) oi'
  have t := exec_times hk b h5 wi (hi.ref h1 h2 oi)
  cases hx : b.exec i with
  | ok y =>
    rw [hx] at r t
    rw [t.2] at r'
    obtain ⟨m, y1, -⟩ := r
    obtain ⟨m', y2, -⟩ := r'
    exact .inl ⟨_, _, _, y1, y2⟩
  | error e =>
    rw [hx] at r t
    obtain ⟨e', t1, t2⟩ := t
    rw [t1] at r'
    right
    rcases t2 with t2 | rfl
    · rcases r with r | ⟨-, r⟩ <;> rcases r' with r' | ⟨-, r'⟩ <;> exact ⟨_, _, r, r', .inr (.inl t2)⟩
    · rcases r with r | ⟨rfl, r⟩ <;> rcases r' with r' | ⟨hb, r'⟩
      · exact ⟨_, _, r, r', .inl rfl⟩
      · exact ⟨_, _, r, r', .inr (.inr (.inl ⟨hb, rfl⟩))⟩
      · exact ⟨_, _, r, r', .inr (.inr (.inr ⟨rfl, rfl⟩))⟩
      · exact ⟨_, _, r, r', .inl rfl⟩

/-! ### A concrete case: dollars and cents -/

instance (i : Instr DemoCb) : Decidable i.Whole := by
  cases i <;> unfold Instr.Whole <;> infer_instance

/-- The demo, a purchase, a mass cancellation, and a sale with a limit of two and a half that is not posted. -/
def centsHist : List (Instr DemoCb) :=
  demoHist ++ [.newOrder demoTake, .massCancelOrders [9 * 2 ^ 96 + (2 ^ 64 - 1 - 3), 11 * 2 ^ 96 + (2 ^ 64 - 1 - 6)],
    .consumeEvents 1, .newOrder { demoOrder .ask 2 9 4 with postAllowed := false, limitPrice := 5 * 2 ^ 31 }]

theorem along_of_forall {N : Market C → Instr C → Prop} : ∀ (is : List (Instr C)) (m : Market C),
    (∀ i ∈ is, ∀ m, N m i) → Along N m is
  | [], _, _ => trivial
  | i :: is, m, h => ⟨h i List.mem_cons_self m, along_of_forall is _ (fun j hj => h j (List.mem_cons_of_mem _ hj))⟩

theorem along_append {N : Market C → Instr C → Prop} : ∀ (is js : List (Instr C)) (m : Market C),
    Along N m is → Along N (m.run is) js → Along N m (is ++ js)
  | [], _, _, _, h => h
  | i :: is, js, m, h, h' => ⟨h.1, along_append is js _ h.2 h'⟩

/-- The quote total of a mass cancellation, computed. -/
theorem expressible_of {m : Market DemoCb} {ids : List Nat}
    (h : (match m.massCancelOrders ids with | .ok (s, _) => decide (s.totalQuoteQty * k < 2 ^ 64) | .error _ => true) = true) :
    Expressible k m (.massCancelOrders ids) := by
  intro s m' he
  rw [he] at h
  exact of_decide_eq_true h

theorem cents_expressible : Along (Expressible 100) (demoCfg.market ⟨0, 0⟩) centsHist := by
  refine along_append (N := Expressible 100) (demoHist ++ [.newOrder demoTake])
    [.massCancelOrders [9 * 2 ^ 96 + (2 ^ 64 - 1 - 3), 11 * 2 ^ 96 + (2 ^ 64 - 1 - 6)], .consumeEvents 1,
      .newOrder { demoOrder .ask 2 9 4 with postAllowed := false, limitPrice := 5 * 2 ^ 31 }] (demoCfg.market ⟨0, 0⟩) (along_of_forall _ _ ?_)
    ⟨expressible_of (by decide +kernel), trivial, trivial, trivial⟩
  intro i hi m
  simp only [demoHist, List.cons_append, List.nil_append, List.mem_cons, List.not_mem_nil, or_false] at hi
  rcases hi with rfl | rfl | rfl | rfl | rfl | rfl | rfl <;> trivial

example := C94_unit_of_quote (k := 100) (x := ⟨0, 0⟩) (x' := ⟨5, 5⟩) (by decide) demo_valid (is := centsHist)
  (by decide +kernel) (by decide +kernel) (by decide +kernel) cents_expressible

/-- The sale brought 18 dollars. -/
example : (pending ((demoCfg.market ⟨0, 0⟩).run centsHist)).getLast? =
    some (.fill .ask (9 * 2 ^ 96 + (2 ^ 64 - 1 - 5)) 2 18 ⟨6, 7⟩ ⟨4, 7⟩) := by decide +kernel

example := C94_same_answer (k := 100) (x := ⟨0, 0⟩) (x' := ⟨5, 5⟩) (by decide) demo_valid (is := centsHist)
  (by decide +kernel) (by decide +kernel) (by decide +kernel) cents_expressible
  (i := .newOrder (demoOrder .ask 5 9 9)) (by decide +kernel) (by decide +kernel) (by decide +kernel) trivial

/-- C94 needs whole prices: three bought at one and a half cost 5 (rounded up), but at three halves of a half 9, not 10. -/
theorem C94_rounding_witness :
    let is : List (Instr DemoCb) := [.newOrder { demoOrder .ask 3 0 1 with limitPrice := 3 * 2 ^ 31 },
      .newOrder (demoOrder .bid 3 2 2)]
    (∀ i ∈ is, i.Ok) ∧ (∀ i ∈ is, (i.times 2).Ok) ∧
    pending (((demoCfg.times 2).market ⟨0, 0⟩).run (is.map (Instr.times 2))) ≠
      (pending ((demoCfg.market ⟨0, 0⟩).run is)).map (Event.times 2) := by
  decide +kernel

end AOB
