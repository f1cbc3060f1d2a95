import Verif.Proofs.Refine
import Verif.Spec.Observe
/-
Invariant of the reference engine.
-/
namespace AOB
variable {C : Type}

/-- `a` ranks before `b` on this side. -/
def Side.before (side : Side) (a b : Order C) : Prop :=
  match side with
  | .bid => b.id < a.id
  | .ask => a.id < b.id

/-- What is known of a resting order. -/
structure OrdOk (side : Side) (seq minBase tick : Nat) (o : Order C) : Prop where
  id : ∃ n < seq, o.id = mkOrderId side o.price n
  price_lt : o.price < 2 ^ 64
  price_pos : 0 < o.price
  tick : tick ∣ o.price
  min : minBase ≤ o.qty
  qty : o.qty < 2 ^ 64
  worth : worth .ask o.qty o.price < 2 ^ 64

/-- Invariant of the reference engine. -/
structure RefInv (a : RefMarket C) : Prop where
  ok : ∀ side, ∀ o ∈ a.orders side, OrdOk side a.seq a.minBase a.tick o
  sorted : ∀ side, (a.orders side).Pairwise side.before
  uncrossed : ∀ b ∈ a.bids, ∀ s ∈ a.asks, b.price < s.price
  len : ∀ side, (a.orders side).length ≤ a.cap side
  evs : a.events.length ≤ a.capEvents
  seq : a.seq < 2 ^ 64

theorem mkOrderId_price {side : Side} {p n : Nat} (hn : n < 2 ^ 64) :
    mkOrderId side p n / 2 ^ 64 = p := by
  cases side <;> simp only [mkOrderId] <;> omega

theorem mkOrderId_lt {side : Side} {p n : Nat} (hp : p < 2 ^ 64) (hn : n < 2 ^ 64) :
    mkOrderId side p n < 2 ^ 128 := by
  cases side <;> simp only [mkOrderId] <;> omega

theorem mkOrderId_inj {side : Side} {p p' n n' : Nat} (hn : n < 2 ^ 64) (hn' : n' < 2 ^ 64)
    (h : mkOrderId side p n = mkOrderId side p' n') : p = p' ∧ n = n' := by
  cases side <;> simp only [mkOrderId] at h <;> omega

/-- Order of two orders on a side: by price, then by sequence number. -/
theorem before_iff {side : Side} {a b : Order C} {pa pb na nb : Nat} (hna : na < 2 ^ 64)
    (hnb : nb < 2 ^ 64) (ha : a.id = mkOrderId side pa na) (hb : b.id = mkOrderId side pb nb) :
    side.before a b ↔ (match side with | .bid => pb < pa | .ask => pa < pb) ∨ (pa = pb ∧ na < nb) := by
  cases side <;> simp only [Side.before, ha, hb, mkOrderId] <;> omega

theorem takeWhile_append_of {α : Type} {p : α → Bool} {L R : List α} (hL : ∀ x ∈ L, p x = true)
    (hR : ∀ x ∈ R, p x = false) :
    (L ++ R).takeWhile p = L ∧ (L ++ R).dropWhile p = R := by
  induction L with
  | nil =>
    cases R with
    | nil => simp
    | cons x R => simp [hR x (by simp)]
  | cons x L ih =>
    have := ih (fun y hy => hL y (List.mem_cons_of_mem _ hy))
    simp [hL x (by simp), this.1, this.2]

/-- Orders already resting with an older sequence number: the price decides. -/
theorem asGood_iff_before {side : Side} {x o : Order C} {seq n : Nat} (hseq : seq < 2 ^ 64)
    (hn : n < seq) (hx : x.id = mkOrderId side x.price n) (ho : o.id = mkOrderId side o.price seq) :
    side.asGood x.price o.price = true ↔ side.before x o := by
  rw [before_iff (by omega) hseq hx ho]
  cases side <;> simp only [Side.asGood, decide_eq_true_iff] <;> omega

theorem before_total {side : Side} {x o : Order C} (h : x.id ≠ o.id) :
    ¬ side.before x o ↔ side.before o x := by
  cases side <;> simp only [Side.before] <;> omega

/-- Inserting by price keeps the side in rank order. -/
theorem insertOrder_split {side : Side} {o : Order C} {l : List (Order C)} {seq : Nat}
    (hseq : seq < 2 ^ 64) (hl : ∀ x ∈ l, ∃ n < seq, x.id = mkOrderId side x.price n)
    (ho : o.id = mkOrderId side o.price seq) (hs : l.Pairwise side.before) :
    ∃ L R, l = L ++ R ∧ insertOrder side o l = L ++ o :: R ∧ (∀ x ∈ L, side.before x o) ∧
      (∀ x ∈ R, side.before o x) := by
  refine ⟨_, _, (List.takeWhile_append_dropWhile (p := fun x => side.asGood x.price o.price)).symm, rfl,
    ?_, ?_⟩
  · intro x hx
    have hxl := List.takeWhile_subset _ hx
    obtain ⟨n, hn, hid⟩ := hl x hxl
    exact (asGood_iff_before hseq hn hid ho).1 (List.all_eq_true.1 (List.all_takeWhile (p := fun x : Order C => side.asGood x.price o.price)) x hx)
  · intro x hx
    have hne : ∀ x ∈ l, x.id ≠ o.id := by
      intro x hx h
      obtain ⟨n, hn, hid⟩ := hl x hx
      rw [hid, ho] at h
      have := (mkOrderId_inj (by omega) hseq h).2
      omega
    have key : ∀ (l : List (Order C)), l.Pairwise side.before →
        (∀ x ∈ l, ∃ n < seq, x.id = mkOrderId side x.price n) → (∀ x ∈ l, x.id ≠ o.id) →
        ∀ x ∈ l.dropWhile (fun x => side.asGood x.price o.price), side.before o x := by
      intro l
      induction l with
      | nil => intro _ _ _ x hx; simp at hx
      | cons y l ih =>
        intro hp hl hne x hx
        rw [List.pairwise_cons] at hp
        by_cases hg : side.asGood y.price o.price = true
        · rw [List.dropWhile_cons, if_pos hg] at hx
          exact ih hp.2 (fun z hz => hl z (List.mem_cons_of_mem _ hz))
            (fun z hz => hne z (List.mem_cons_of_mem _ hz)) x hx
        · rw [List.dropWhile_cons, if_neg hg] at hx
          obtain ⟨n, hn, hid⟩ := hl y (by simp)
          have hy : side.before o y := by
            rw [asGood_iff_before hseq hn hid ho] at hg
            exact (before_total (hne y (by simp))).1 hg
          rcases List.mem_cons.1 hx with rfl | hx
          · exact hy
          · have := hp.1 x hx
            cases side <;> simp only [Side.before] at * <;> omega
    exact key l hs hl hne x hx

theorem insertOrder_sorted {side : Side} {o : Order C} {l : List (Order C)} {seq : Nat}
    (hseq : seq < 2 ^ 64) (hl : ∀ x ∈ l, ∃ n < seq, x.id = mkOrderId side x.price n)
    (ho : o.id = mkOrderId side o.price seq) (hs : l.Pairwise side.before) :
    (insertOrder side o l).Pairwise side.before := by
  obtain ⟨L, R, rfl, h2, h3, h4⟩ := insertOrder_split hseq hl ho hs
  rw [h2, List.pairwise_append, List.pairwise_cons]
  rw [List.pairwise_append] at hs
  refine ⟨hs.1, ⟨h4, hs.2.1⟩, ?_⟩
  intro a ha b hb
  rcases List.mem_cons.1 hb with rfl | hb
  · exact h3 a ha
  · exact hs.2.2 a ha b hb

theorem mem_insertOrder {side : Side} {o x : Order C} {l : List (Order C)} :
    x ∈ insertOrder side o l ↔ x = o ∨ x ∈ l := by
  unfold insertOrder
  conv_rhs => rw [← List.takeWhile_append_dropWhile (p := fun x => side.asGood x.price o.price) (l := l)]
  rw [List.mem_append, List.mem_cons, List.mem_append]
  tauto

theorem length_insertOrder {side : Side} {o : Order C} {l : List (Order C)} :
    (insertOrder side o l).length = l.length + 1 := by
  unfold insertOrder
  conv_rhs => rw [← List.takeWhile_append_dropWhile (p := fun x => side.asGood x.price o.price) (l := l)]
  simp only [List.length_append, List.length_cons]
  omega

end AOB
