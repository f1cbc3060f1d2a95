import Verif.Spec.Wasm
import Verif.Proofs.Client
/-
The walks of `js/wasm` over a tree of its own format.
-/
namespace AOB.Wasm
open Js (Price levels ByPrice sizeAt)

/-- One leaf. -/
def push (r : List Price) (o : Order Bytes) : Res (List Price) :=
  match r.getLast? with
  | some last =>
    if last.price = o.price then (addU64 last.size o.qty).map fun size => r.dropLast ++ [{ last with size }]
    else .ok (r ++ [⟨o.qty, o.price⟩])
  | none => .ok (r ++ [⟨o.qty, o.price⟩])

/-- All leaves, until there are `depth` levels. -/
def run (depth : Nat) : List (Order Bytes) → List Price → Res (List Price)
  | [], r => .ok r
  | o :: os, r => if r.length = depth then .ok r else push r o >>= run depth os

theorem run_full {depth : Nat} {r : List Price} (h : r.length = depth) (os : List (Order Bytes)) : run depth os r = .ok r := by
  cases os with
  | nil => rfl
  | cons o os => rw [run, if_pos h]

theorem run_append (depth : Nat) (b : List (Order Bytes)) : ∀ (a : List (Order Bytes)) (r : List Price),
    run depth (a ++ b) r = run depth a r >>= run depth b := by
  intro a
  induction a with
  | nil => intro r; rfl
  | cons o a ih =>
    intro r
    rw [List.cons_append, run, run]
    by_cases h : r.length = depth
    · rw [if_pos h, if_pos h]
      exact (run_full h b).symm
    · rw [if_neg h, if_neg h]
      cases push r o with
      | error e => rfl
      | ok r' => exact ih r'

theorem loop_full {get : Nat → Res Node} {depth : Nat} {inc : Bool} {fuel : Nat} {stack : List Nat} {r : List Price}
    (h : r.length = depth) : l2Loop get depth inc (fuel + 1) stack r = .ok r := by
  cases stack <;> rw [l2Loop, if_pos h]

theorem loop_holds {get : Nat → Res Node} {depth : Nat} {inc : Bool} {h : Nat} {os : List (Order Bytes)}
    (hh : Holds get h os) : ∃ n, ∀ fuel stack r, l2Loop get depth inc (fuel + n + 1) (h :: stack) r =
      run depth (if inc then os else os.reverse) r >>= l2Loop get depth inc (fuel + 1) stack := by
  induction hh with
  | @leaf h o hg =>
    refine ⟨1, fun fuel stack r => ?_⟩
    have e : (if inc then [o] else [o].reverse) = [o] := by cases inc <;> rfl
    rw [e]
    by_cases hd : r.length = depth
    · rw [loop_full hd, run_full hd]
      exact (loop_full hd).symm
    · rw [l2Loop, if_neg hd, run, if_neg hd]
      rw [hg]
      show _ = (push r o >>= run depth []) >>= _
      unfold push
      cases r.getLast? with
      | none => rfl
      | some last =>
        dsimp only [Bind.bind, Except.bind]
        by_cases hp : last.price = o.price
        · rw [if_pos (show last.price = o.id / 2 ^ 64 from hp), if_pos hp]
          cases addU64 last.size o.qty <;> rfl
        · rw [if_neg (show last.price ≠ o.id / 2 ^ 64 from hp), if_neg hp]
          rfl
  | @inner h p k c0 c1 l0 l1 hg _ _ ih0 ih1 =>
    obtain ⟨n0, h0⟩ := ih0
    obtain ⟨n1, h1⟩ := ih1
    refine ⟨n0 + n1 + 1, fun fuel stack r => ?_⟩
    by_cases hd : r.length = depth
    · rw [loop_full hd, run_full hd]
      exact (loop_full hd).symm
    · rw [l2Loop, if_neg hd]
      rw [hg]
      dsimp only [Bind.bind, Except.bind]
      cases inc with
      | true =>
        simp only [if_true] at h0 h1 ⊢
        have e : fuel + (n0 + n1 + 1) = (fuel + n1) + n0 + 1 := by omega
        rw [e, h0, run_append]
        cases run depth l0 r with
        | error e => rfl
        | ok r' => exact h1 _ _ _
      | false =>
        simp only [Bool.false_eq_true, if_false, List.reverse_append] at h0 h1 ⊢
        have e : fuel + (n0 + n1 + 1) = (fuel + n0) + n1 + 1 := by omega
        rw [e, h1, run_append]
        cases run depth l1.reverse r with
        | error e => rfl
        | ok r' => exact h0 _ _ _

theorem sizeAt_le (a b : List (Order Bytes)) (p : Nat) : sizeAt a p ≤ sizeAt (a ++ b) p := by
  rw [Js.sizeAt_append]; omega

theorem levels_last {a : List (Order Bytes)} {last : Price} (h : (levels a).getLast? = some last) :
    last.size = sizeAt a last.price := by
  have : last ∈ levels a := List.mem_of_getLast? h
  rw [Js.levels_eq, List.mem_map] at this
  obtain ⟨p, -, rfl⟩ := this
  rfl

/-- Where the walk stops: at the end, or at the first order of the last level wanted. -/
def Stop (depth : Nat) (a b : List (Order Bytes)) : Prop :=
  (b = [] ∧ (levels a).length < depth) ∨
  ((levels a).length = depth ∧ (a = [] ∨ ∃ a0 o, a = a0 ++ [o] ∧ ∀ x ∈ a0, ∀ y ∈ o :: b, x.price ≠ y.price))

theorem run_stop {depth : Nat} : ∀ (b a : List (Order Bytes)), ByPrice (a ++ b) → (∀ p, sizeAt (a ++ b) p < 2 ^ 64) →
    (levels a).getLast?.map Price.price = a.getLast?.map Order.price →
    ((levels a).length < depth ∨ Stop depth a b) →
    ∃ a' b', a ++ b = a' ++ b' ∧ run depth b (levels a) = .ok (levels a') ∧ Stop depth a' b' := by
  intro b
  induction b with
  | nil =>
    intro a _ _ _ h
    refine ⟨a, [], rfl, rfl, ?_⟩
    rcases h with h | h
    · exact .inl ⟨rfl, h⟩
    · exact h
  | cons o b ih =>
    intro a hs hsz hlast h
    by_cases hd : (levels a).length = depth
    · refine ⟨a, o :: b, rfl, run_full hd _, ?_⟩
      rcases h with h | h
      · omega
      · exact h
    · have hlt : (levels a).length < depth := by
        rcases h with h | h | h
        · exact h
        · exact absurd h.1 (by simp)
        · exact absurd h.1 hd
      rw [run, if_neg hd]
      have e : a ++ o :: b = (a ++ [o]) ++ b := by simp
      have hnew : (∀ x ∈ a, ∀ y ∈ o :: b, x.price ≠ y.price) → push (levels a) o = .ok (levels a ++ [⟨o.qty, o.price⟩]) →
          ∃ a' b', a ++ o :: b = a' ++ b' ∧ (push (levels a) o >>= run depth b) = .ok (levels a') ∧ Stop depth a' b' := by
        intro hf hp
        have hl := Js.levels_new (a := a) (o := o) (fun x hx => hf x hx o (by simp))
        rw [hp, ← hl]
        have := ih (a ++ [o]) (by rw [← e]; exact hs) (by rw [← e]; exact hsz) (by rw [hl]; simp) (by
          rw [hl]
          by_cases h1 : (levels a).length + 1 < depth
          · left; simpa using h1
          · right; right
            refine ⟨?_, .inr ⟨a, o, rfl, hf⟩⟩
            rw [hl]
            simp; omega)
        rw [← e] at this
        exact this
      cases hg : (levels a).getLast? with
      | none =>
        rw [hg] at hlast
        have ha : a = [] := by
          cases hh : a.getLast? with
          | none => exact List.getLast?_eq_none_iff.1 hh
          | some x => rw [hh] at hlast; cases hlast
        exact hnew (by rw [ha]; simp) (by unfold push; rw [hg])
      | some last =>
        rw [hg] at hlast
        obtain ⟨l, hl, hlp⟩ : ∃ l, a.getLast? = some l ∧ l.price = last.price := by
          cases hh : a.getLast? with
          | none => rw [hh] at hlast; cases hlast
          | some x => rw [hh] at hlast; exact ⟨x, rfl, (Option.some.inj hlast).symm⟩
        by_cases hp : last.price = o.price
        · have hsame := Js.levels_same hg hp
          have hsum : last.size + o.qty < U64 := by
            have h1 := hsz o.price
            have h2 := sizeAt_le (a ++ [o]) b o.price
            rw [← e] at h2
            rw [Js.sizeAt_append] at h2
            have h3 := levels_last hg
            rw [hp] at h3
            have h4 : sizeAt [o] o.price = o.qty := by simp [sizeAt]
            unfold U64
            omega
          have hpush : push (levels a) o = .ok (levels (a ++ [o])) := by
            unfold push
            rw [hg, hsame]
            dsimp only
            rw [if_pos hp]
            unfold addU64
            rw [if_pos hsum]
            rfl
          rw [hpush]
          have hlen : (levels (a ++ [o])).length = (levels a).length := by
            have : (levels a).length ≠ 0 := by
              intro h0
              rw [List.length_eq_zero_iff] at h0
              rw [h0] at hg; cases hg
            rw [hsame]
            simp; omega
          have := ih (a ++ [o]) (by rw [← e]; exact hs) (by rw [← e]; exact hsz) (by rw [hsame]; simp [hp])
            (.inl (by rw [hlen]; exact hlt))
          rw [← e] at this
          exact this
        · exact hnew (hs.fresh hl (by rw [hlp]; exact hp)) (by unfold push; rw [hg]; dsimp only; rw [if_neg hp])

/-- The levels of a list that goes on with a new price. -/
theorem levels_go_on {a b : List (Order Bytes)} {o : Order Bytes} (h : ∀ x ∈ a, ∀ y ∈ o :: b, x.price ≠ y.price) :
    ∃ s r, levels (a ++ o :: b) = levels a ++ ⟨s, o.price⟩ :: r := by
  obtain ⟨r, hr⟩ := Js.levels_prefix h
  have h1 := congrArg (List.map Price.price) hr
  have hp : ∀ l : List (Order Bytes), (levels l).map Price.price = (l.map Order.price).eraseDups := by
    intro l
    rw [Js.levels_eq, List.map_map]
    exact List.map_id _
  rw [List.map_append, hp, hp, List.map_append, List.eraseDups_append] at h1
  have h2 := List.append_cancel_left h1
  have h3 : (List.map Order.price (o :: b)).removeAll (List.map Order.price a) = List.map Order.price (o :: b) := by
    unfold List.removeAll
    rw [List.filter_eq_self]
    intro p hp
    obtain ⟨y, hy, rfl⟩ := List.mem_map.1 hp
    simpa using fun x hx => h x hx y hy
  rw [h3, List.map_cons, List.eraseDups_cons] at h2
  cases r with
  | nil => cases h2
  | cons x r =>
    obtain ⟨e, -⟩ := List.cons.inj h2
    refine ⟨x.size, r, ?_⟩
    rw [hr]
    cases x
    dsimp only at e
    rw [e]

theorem loop_minMax {get : Nat → Res Node} {h : Nat} {os : List (Order Bytes)} (hh : Holds get h os) (findMax : Bool) :
    ∃ n k o, (if findMax then os.getLast? else os.head?) = some o ∧ get k = .ok (.leaf o.id o.cb o.qty) ∧
      ∀ fuel, minMaxLoop get findMax (fuel + n) h = .ok k := by
  induction hh with
  | @leaf h o hg =>
    refine ⟨1, h, o, by cases findMax <;> rfl, hg, fun fuel => ?_⟩
    rw [minMaxLoop, hg]
    rfl
  | @inner h p k c0 c1 l0 l1 hg h0 h1 ih0 ih1 =>
    cases findMax with
    | true =>
      obtain ⟨n, k, o, e1, e2, e3⟩ := ih1
      refine ⟨n + 1, k, o, ?_, e2, fun fuel => ?_⟩
      · simp only [if_true] at e1 ⊢
        rw [List.getLast?_append, e1]
        rfl
      · rw [← Nat.add_assoc, minMaxLoop, hg]
        exact e3 fuel
    | false =>
      obtain ⟨n, k, o, e1, e2, e3⟩ := ih0
      refine ⟨n + 1, k, o, ?_, e2, fun fuel => ?_⟩
      · simp only [Bool.false_eq_true, if_false] at e1 ⊢
        rw [List.head?_append, e1]
        rfl
      · rw [← Nat.add_assoc, minMaxLoop, hg]
        exact e3 fuel

end AOB.Wasm
