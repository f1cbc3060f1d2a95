import Verif.Proofs.Relate
import Verif.Spec.Economy
/-
Comparing the matching of two orders that differ in one parameter, and of one order against two books.
-/
namespace AOB
variable {C : Type} [CallbackInfo C]

omit [CallbackInfo C] in
theorem map_emit_ok {x : Except AoError (MatchOut C)} {es : List (Event C)} {r : MatchOut C}
    (h : x.map (MatchOut.emit es) = .ok r) : ∃ r1, x = .ok r1 ∧ r = MatchOut.emit es r1 := by
  cases x with
  | error e => cases h
  | ok r1 => exact ⟨r1, rfl, (Except.ok.inj h).symm⟩

/-- One successful round of matching, as a case distinction. -/
inductive Round (p : NewOrderParams C) (mb n room : Nat) (o : Order C) (rest : List (Order C)) (b q t : Nat) (r : MatchOut C) :
    Prop
  | self (r1 : MatchOut C)
      (why : p.selfTradeBehavior ≠ .decrementTake ∧
        CallbackInfo.asCallbackId p.callbackInfo = CallbackInfo.asCallbackId o.cb)
      (next : refMatch p mb n (room - 1) rest b q true = .ok r1)
      (res : r = MatchOut.emit [.out p.side.opposite o.id o.qty o.cb] r1)
  | whole (r1 : MatchOut C)
      (why : ¬(p.selfTradeBehavior ≠ .decrementTake ∧
        CallbackInfo.asCallbackId p.callbackInfo = CallbackInfo.asCallbackId o.cb)) (dust : o.qty - t < mb)
      (next : refMatch p mb n (room - 2) rest (b - t) (q - worth p.side t o.price) true = .ok r1)
      (res : r = MatchOut.emit [.fill p.side o.id t (worth p.side t o.price) o.cb p.callbackInfo,
        .out p.side.opposite o.id (o.qty - t) o.cb] r1)
  | part (r1 : MatchOut C)
      (why : ¬(p.selfTradeBehavior ≠ .decrementTake ∧
        CallbackInfo.asCallbackId p.callbackInfo = CallbackInfo.asCallbackId o.cb)) (keep : ¬ o.qty - t < mb)
      (next : refMatch p mb n (room - 1) ({ o with qty := o.qty - t } :: rest) (b - t) (q - worth p.side t o.price) true =
        .ok r1)
      (res : r = MatchOut.emit [.fill p.side o.id t (worth p.side t o.price) o.cb p.callbackInfo] r1)

theorem round_of {p : NewOrderParams C} {mb n room : Nat} {o : Order C} {rest : List (Order C)} {b q : Nat} {cr : Bool}
    {r : MatchOut C} (h : refMatch p mb (n + 1) room (o :: rest) b q cr = .ok r) :
    (r.events = [] ∧ ((p.postOnly || !p.side.accepts p.limitPrice o.price) = true ∨
      min (min o.qty b) (affordable q o.price) = 0 ∨
      worth p.side (min (min o.qty b) (affordable q o.price)) o.price = 0)) ∨
    ((p.postOnly || !p.side.accepts p.limitPrice o.price) = false ∧
      min (min o.qty b) (affordable q o.price) ≠ 0 ∧
      worth p.side (min (min o.qty b) (affordable q o.price)) o.price ≠ 0 ∧
      Round p mb n room o rest b q (min (min o.qty b) (affordable q o.price)) r) := by
  simp only [refMatch] at h
  by_cases h1 : (p.postOnly || !p.side.accepts p.limitPrice o.price) = true
  · rw [if_pos h1] at h
    exact .inl ⟨by rw [← Except.ok.inj h], .inl h1⟩
  rw [if_neg h1] at h
  by_cases h2 : min (min o.qty b) (affordable q o.price) = 0 ∨
      worth p.side (min (min o.qty b) (affordable q o.price)) o.price = 0
  · rw [if_pos h2] at h
    exact .inl ⟨by rw [← Except.ok.inj h], .inr h2⟩
  rw [if_neg h2] at h
  refine .inr ⟨by simpa using h1, fun e => h2 (.inl e), fun e => h2 (.inr e), ?_⟩
  generalize min (min o.qty b) (affordable q o.price) = t at *
  by_cases h3 : p.selfTradeBehavior ≠ .decrementTake ∧
      CallbackInfo.asCallbackId p.callbackInfo = CallbackInfo.asCallbackId o.cb
  · rw [if_pos h3] at h
    split_ifs at h
    obtain ⟨r1, e1, e2⟩ := map_emit_ok h
    exact .self r1 h3 e1 e2
  rw [if_neg h3] at h
  by_cases h4 : o.qty - t < mb
  · rw [if_pos h4] at h
    split_ifs at h
    obtain ⟨r1, e1, e2⟩ := map_emit_ok h
    exact .whole r1 h3 h4 e1 e2
  · rw [if_neg h4] at h
    split_ifs at h
    obtain ⟨r1, e1, e2⟩ := map_emit_ok h
    exact .part r1 h3 h4 e1 e2

/-- A looser limit price only adds events at the end. -/
theorem refMatch_looser {p : NewOrderParams C} {l mb : Nat}
    (hl : ∀ x, p.side.accepts p.limitPrice x = true → p.side.accepts l x = true) :
    ∀ (n room : Nat) (opp : List (Order C)) (b q : Nat) (cr : Bool) (r1 r2 : MatchOut C),
    refMatch p mb n room opp b q cr = .ok r1 → refMatch { p with limitPrice := l } mb n room opp b q cr = .ok r2 →
    r1.events <+: r2.events
  | 0, _, _, _, _, _, r1, r2, h1, _ => by
    simp only [refMatch] at h1
    rw [← Except.ok.inj h1]; exact List.nil_prefix
  | _ + 1, _, [], _, _, _, r1, r2, h1, _ => by
    simp only [refMatch] at h1
    rw [← Except.ok.inj h1]; exact List.nil_prefix
  | n + 1, room, o :: rest, b, q, cr, r1, r2, h1, h2 => by
    rcases round_of h1 with ⟨e, _⟩ | ⟨x1, x2, x3, x4⟩
    · rw [e]; exact List.nil_prefix
    rcases round_of h2 with ⟨_, y⟩ | ⟨_, _, _, y4⟩
    · exfalso
      rcases y with y | y | y
      · simp only [Bool.or_eq_false_iff, Bool.not_eq_false'] at x1
        simp only [x1.1, hl _ x1.2] at y
        cases y
      · exact x2 y
      · exact x3 y
    generalize min (min o.qty b) (affordable q o.price) = t at *
    rcases x4 with ⟨s1, w1, g1, rfl⟩ | ⟨s1, w1, d1, g1, rfl⟩ | ⟨s1, w1, d1, g1, rfl⟩ <;>
      rcases y4 with ⟨s2, w2, g2, rfl⟩ | ⟨s2, w2, d2, g2, rfl⟩ | ⟨s2, w2, d2, g2, rfl⟩ <;>
      first
        | exact absurd w1 w2
        | exact absurd w2 w1
        | exact absurd d1 d2
        | exact absurd d2 d1
        | exact (List.prefix_append_right_inj _).2 (refMatch_looser hl n _ _ _ _ _ _ _ g1 g2)

/-- Nothing happens while nothing can be bought. -/
theorem refMatch_stuck {p : NewOrderParams C} {mb : Nat} {n room : Nat} {opp : List (Order C)} {b q : Nat} {cr : Bool}
    {r : MatchOut C} (hs : b = 0 ∨ ∀ o ∈ opp, affordable q o.price = 0) (h : refMatch p mb n room opp b q cr = .ok r) :
    r.events = [] := by
  cases n with
  | zero => simp only [refMatch] at h; rw [← Except.ok.inj h]
  | succ n =>
    cases opp with
    | nil => simp only [refMatch] at h; rw [← Except.ok.inj h]
    | cons o rest =>
      rcases round_of h with ⟨e, _⟩ | ⟨_, x2, _, _⟩
      · exact e
      · exfalso
        apply x2
        rcases hs with rfl | hs
        · omega
        · have := hs o (by simp); omega

omit [CallbackInfo C] in
theorem affordable_mono {q1 q2 : Nat} (h : q1 ≤ q2) (x : Nat) : affordable q1 x ≤ affordable q2 x :=
  Nat.div_le_div_right (Nat.mul_le_mul_right _ h)

/-- Having bought all that the quote cap affords, a buyer can afford nothing at the same or a worse price. -/
theorem affordable_spent {q x y : Nat} (h0 : affordable q x ≠ 0) (hxy : x ≤ y) :
    affordable (q - worth .bid (affordable q x) x) y = 0 := by
  have hx : 0 < x := by
    rcases Nat.eq_zero_or_pos x with rfl | h
    · exact absurd (Nat.div_zero _) h0
    · exact h
  have h1 : q * 2 ^ 32 < affordable q x * x + x := by
    have := Nat.lt_mul_div_succ (q * 2 ^ 32) hx
    unfold affordable
    rw [Nat.mul_comm x, Nat.add_mul, Nat.one_mul] at this
    exact this
  have h2 : affordable q x * x ≤ 2 ^ 32 * worth .bid (affordable q x) x := by
    unfold worth
    simp only
    generalize affordable q x * x = y
    omega
  generalize worth .bid (affordable q x) x = w at *
  generalize affordable q x * x = z at *
  clear h0
  have h3 : (q - w) * 2 ^ 32 < y := by
    rw [Nat.sub_mul]
    omega
  exact Nat.div_eq_of_lt h3

/-- Larger caps: what is traded does not shrink, if only the base cap grows or the taker buys. -/
theorem refMatch_more {p : NewOrderParams C} {mb : Nat} :
    ∀ (n room : Nat) (opp : List (Order C)) (b1 b2 q1 q2 : Nat) (cr : Bool) (r1 r2 : MatchOut C),
    b1 ≤ b2 → q1 ≤ q2 → (q1 = q2 ∨ p.side = .bid ∧ opp.Pairwise (fun x y => x.price ≤ y.price)) →
    refMatch p mb n room opp b1 q1 cr = .ok r1 → refMatch p mb n room opp b2 q2 cr = .ok r2 →
    sumBase (fills r1.events) ≤ sumBase (fills r2.events) ∧ sumQuote (fills r1.events) ≤ sumQuote (fills r2.events)
  | 0, _, _, _, _, _, _, _, r1, r2, _, _, _, h1, _ => by
    simp only [refMatch] at h1
    rw [← Except.ok.inj h1]; exact ⟨Nat.zero_le _, Nat.zero_le _⟩
  | _ + 1, _, [], _, _, _, _, _, r1, r2, _, _, _, h1, _ => by
    simp only [refMatch] at h1
    rw [← Except.ok.inj h1]; exact ⟨Nat.zero_le _, Nat.zero_le _⟩
  | n + 1, room, o :: rest, b1, b2, q1, q2, cr, r1, r2, hb, hq, hs, h1, h2 => by
    rcases round_of h1 with ⟨e, _⟩ | ⟨x1, x2, x3, x4⟩
    · rw [e]; exact ⟨Nat.zero_le _, Nat.zero_le _⟩
    have ha := affordable_mono hq o.price
    have ht : min (min o.qty b1) (affordable q1 o.price) ≤ min (min o.qty b2) (affordable q2 o.price) := by omega
    have hw := worth_mono (side := p.side) (p := o.price) ht
    rcases round_of h2 with ⟨_, y⟩ | ⟨_, _, _, y4⟩
    · exfalso
      rcases y with y | y | y
      · rw [x1] at y; cases y
      · omega
      · omega
    have hrest : ∀ o' : Order C, o'.price = o.price → q1 = q2 ∨ p.side = .bid ∧
        (o' :: rest).Pairwise (fun x y => x.price ≤ y.price) := by
      intro o' e
      rcases hs with hs | ⟨hs, hp⟩
      · exact .inl hs
      · refine .inr ⟨hs, ?_⟩
        rw [List.pairwise_cons] at hp ⊢
        exact ⟨fun x hx => by rw [e]; exact hp.1 x hx, hp.2⟩
    by_cases heq : min (min o.qty b1) (affordable q1 o.price) = min (min o.qty b2) (affordable q2 o.price)
    · rw [← heq] at y4
      clear ht ha hw
      generalize min (min o.qty b1) (affordable q1 o.price) = t at *
      have hb' : b1 - t ≤ b2 - t := Nat.sub_le_sub_right hb _
      have hq' : q1 - worth p.side t o.price ≤ q2 - worth p.side t o.price := Nat.sub_le_sub_right hq _
      have hs1 : q1 = q2 ∨ p.side = .bid ∧ rest.Pairwise (fun x y => x.price ≤ y.price) := by
        rcases hs with hs | ⟨hs, hp⟩
        · exact .inl hs
        · exact .inr ⟨hs, (List.pairwise_cons.1 hp).2⟩
      have hs2 : q1 - worth p.side t o.price = q2 - worth p.side t o.price ∨ p.side = .bid ∧ rest.Pairwise (fun x y => x.price ≤ y.price) :=
        hs1.imp (fun e => by rw [e]) id
      have hs3 : q1 - worth p.side t o.price = q2 - worth p.side t o.price ∨ p.side = .bid ∧
          (({ o with qty := o.qty - t } : Order C) :: rest).Pairwise (fun x y => x.price ≤ y.price) :=
        (hrest { o with qty := o.qty - t } rfl).imp (fun e => by rw [e]) id
      rcases x4 with ⟨s1, w1, g1, rfl⟩ | ⟨s1, w1, d1, g1, rfl⟩ | ⟨s1, w1, d1, g1, rfl⟩ <;>
        rcases y4 with ⟨s2, w2, g2, rfl⟩ | ⟨s2, w2, d2, g2, rfl⟩ | ⟨s2, w2, d2, g2, rfl⟩ <;>
        first
          | exact absurd w1 w2
          | exact absurd w2 w1
          | exact absurd d1 d2
          | exact absurd d2 d1
          | skip
      · have := refMatch_more n _ _ _ _ _ _ _ _ _ hb hq hs1 g1 g2
        exact this
      · have := refMatch_more n _ _ _ _ _ _ _ _ _ hb' hq' hs2 g1 g2
        simp only [MatchOut.emit, fills_append, sumBase_append, sumQuote_append]
        exact ⟨Nat.add_le_add_left this.1 _, Nat.add_le_add_left this.2 _⟩
      · have := refMatch_more n _ _ _ _ _ _ _ _ _ hb' hq' hs3 g1 g2
        simp only [MatchOut.emit, fills_append, sumBase_append, sumQuote_append]
        exact ⟨Nat.add_le_add_left this.1 _, Nat.add_le_add_left this.2 _⟩
    · have hlt : min (min o.qty b1) (affordable q1 o.price) < min (min o.qty b2) (affordable q2 o.price) := by omega
      have hstuck : ∀ o' : Order C, o'.price = o.price →
          b1 - min (min o.qty b1) (affordable q1 o.price) = 0 ∨ ∀ x ∈ o' :: rest,
          affordable (q1 - worth p.side (min (min o.qty b1) (affordable q1 o.price)) o.price) x.price = 0 := by
        intro o' e'
        by_cases hb1 : b1 ≤ min o.qty (affordable q1 o.price)
        · left; omega
        · right
          have hm : min (min o.qty b1) (affordable q1 o.price) = affordable q1 o.price := by omega
          rw [hm] at x2 x3 ⊢
          intro x hx
          rcases hrest o' e' with rfl | ⟨hbid, hp⟩
          · exfalso; omega
          · rw [hbid]
            apply affordable_spent x2
            rcases List.mem_cons.1 hx with rfl | hx
            · exact e'.ge
            · rw [← e']; exact (List.pairwise_cons.1 hp).1 x hx
      clear ha heq ht
      generalize min (min o.qty b1) (affordable q1 o.price) = t1 at *
      generalize min (min o.qty b2) (affordable q2 o.price) = t2 at *
      have hst' : b1 - t1 = 0 ∨ ∀ x ∈ rest, affordable (q1 - worth p.side t1 o.price) x.price = 0 :=
        (hstuck o rfl).imp id (fun h x hx => h x (List.mem_cons_of_mem _ hx))
      have hst2 := hstuck { o with qty := o.qty - t1 } rfl
      clear hstuck
      have one : ∀ t v, sumBase (fills [Event.fill p.side o.id t v o.cb p.callbackInfo]) = t ∧
          sumQuote (fills [Event.fill p.side o.id t v o.cb p.callbackInfo]) = v := fun _ _ => ⟨rfl, rfl⟩
      have two : ∀ t v es,
          sumBase (fills [Event.fill p.side o.id t v o.cb p.callbackInfo, .out p.side.opposite o.id es o.cb]) = t ∧
          sumQuote (fills [Event.fill p.side o.id t v o.cb p.callbackInfo, .out p.side.opposite o.id es o.cb]) = v :=
        fun _ _ _ => ⟨rfl, rfl⟩
      have zero : sumBase (fills ([] : List (Event C))) = 0 ∧ sumQuote (fills ([] : List (Event C))) = 0 := ⟨rfl, rfl⟩
      rcases x4 with ⟨s1, w1, g1, rfl⟩ | ⟨s1, w1, d1, g1, rfl⟩ | ⟨s1, w1, d1, g1, rfl⟩ <;>
        rcases y4 with ⟨s2, w2, g2, rfl⟩ | ⟨s2, w2, d2, g2, rfl⟩ | ⟨s2, w2, d2, g2, rfl⟩ <;>
        first
          | exact absurd w1 w2
          | exact absurd w2 w1
          | skip
      · have := refMatch_more n _ _ _ _ _ _ _ _ _ hb hq
          (by
            rcases hs with hs | ⟨hs, hp⟩
            · exact .inl hs
            · exact .inr ⟨hs, (List.pairwise_cons.1 hp).2⟩) g1 g2
        exact this
      all_goals
        have := refMatch_stuck (by first | exact hst' | exact hst2) g1
        simp only [MatchOut.emit, fills_append, sumBase_append, sumQuote_append, this, one, two, zero]
        exact ⟨by omega, by omega⟩

/-- The events about orders in front do not depend on the orders behind. -/
theorem refMatch_behind {p : NewOrderParams C} {mb : Nat} {ids : List Nat} {B1 B2 : List (Order C)}
    (hB1 : ∀ o ∈ B1, o.id ∉ ids) (hB2 : ∀ o ∈ B2, o.id ∉ ids)  :
    ∀ (n room1 room2 : Nat) (A : List (Order C)) (b q : Nat) (cr1 cr2 : Bool) (r1 r2 : MatchOut C),
    refMatch p mb n room1 (A ++ B1) b q cr1 = .ok r1 → refMatch p mb n room2 (A ++ B2) b q cr2 = .ok r2 →
    about ids r1.events = about ids r2.events
  | 0, _, _, _, _, _, _, _, r1, r2, h1, h2 => by
    simp only [refMatch] at h1 h2
    rw [← Except.ok.inj h1, ← Except.ok.inj h2]
  | n + 1, room1, room2, [], b, q, cr1, cr2, r1, r2, h1, h2 => by
    have key : ∀ {room : Nat} {B : List (Order C)} {cr : Bool} {r : MatchOut C}, (∀ o ∈ B, o.id ∉ ids) →
        refMatch p mb (n + 1) room ([] ++ B) b q cr = .ok r → about ids r.events = [] := by
      intro room B cr r hB h
      obtain ⟨_, _, hs, _⟩ := refMatch_ok h (fun e => absurd e (Nat.succ_ne_zero n))
      unfold about
      rw [List.filter_eq_nil_iff]
      intro e he
      obtain ⟨o, ho, e1, _⟩ := hs.named e he
      simp only [decide_eq_true_eq]
      rw [e1]
      exact hB o ho
    rw [key hB1 h1, key hB2 h2]
  | n + 1, room1, room2, o :: rest, b, q, cr1, cr2, r1, r2, h1, h2 => by
    rw [List.cons_append] at h1 h2
    rcases round_of h1 with ⟨e, x⟩ | ⟨x1, x2, x3, x4⟩ <;> rcases round_of h2 with ⟨e', y⟩ | ⟨y1, y2, y3, y4⟩
    · rw [e, e']
    · exfalso
      rcases x with x | x | x
      · rw [x] at y1; cases y1
      · exact y2 x
      · exact y3 x
    · exfalso
      rcases y with x | x | x
      · rw [x] at x1; cases x1
      · exact x2 x
      · exact x3 x
    generalize min (min o.qty b) (affordable q o.price) = t at *
    rcases x4 with ⟨s1, w1, g1, rfl⟩ | ⟨s1, w1, d1, g1, rfl⟩ | ⟨s1, w1, d1, g1, rfl⟩ <;>
      rcases y4 with ⟨s2, w2, g2, rfl⟩ | ⟨s2, w2, d2, g2, rfl⟩ | ⟨s2, w2, d2, g2, rfl⟩ <;>
      first
        | exact absurd w1 w2
        | exact absurd w2 w1
        | exact absurd d1 d2
        | exact absurd d2 d1
        | (simp only [MatchOut.emit, about, List.filter_append]
           congr 1
           first
             | exact refMatch_behind hB1 hB2 n _ _ _ _ _ _ _ _ _ g1 g2
             | (rw [← List.cons_append] at g1 g2
                exact refMatch_behind hB1 hB2 n _ _ _ _ _ _ _ _ _ g1 g2))

end AOB
