import Verif.Proofs.HaltApply
import Verif.Proofs.OneSide
import Verif.Props.Pool
import Verif.Proofs.Conserve
/-! # The pools can pay for their matched orders (C61) -/
namespace Verif.Dex
open Verif Verif.Amm Verif.Spec

variable {s s' : State}

/-- What account `a` pays in `d` for a matched pool order. -/
def poolOut (pair : Pair) (y : Order) (a : Addr) (d : Denom) : Int :=
  match y.kind with
  | .user _ _ => 0
  | .pool id => if y.isMatched then (if a = .poolReserve id then (if d = pair.offerDenom y.dir then y.paid else 0) else 0) else 0

theorem queuePool_outflow (pair : Pair) (a : Addr) (d : Denom) : ∀ (os : List Order) (op : BulkOp),
    outflow (queuePoolPayments pair os op) a d = outflow op a d + total (fun y => poolOut pair y a d) os := by
  intro os
  induction os with
  | nil => intro op; simp [queuePoolPayments, total]
  | cons o os ih =>
    intro op
    unfold queuePoolPayments
    rw [ih]
    unfold total poolOut
    simp only [List.map_cons, List.sum_cons]
    cases hk : o.kind with
    | user a b => simp
    | pool id =>
      simp only
      split
      · rw [queue_outflow]
        have : amountOf [⟨pair.offerDenom o.dir, o.paid⟩] d = if d = pair.offerDenom o.dir then o.paid else 0 := by
          simp [amountOf, eq_comm (a := d)]
        rw [this]; ring
      · simp

theorem queuePool_coins {pair : Pair} : ∀ {os : List Order} {op : BulkOp}, (∀ x ∈ os, 0 ≤ x.paid) → (∀ t ∈ op, ∀ c ∈ t.amt, 0 ≤ c.amt) →
    ∀ t ∈ queuePoolPayments pair os op, ∀ c ∈ t.amt, 0 ≤ c.amt := by
  intro os
  induction os with
  | nil => intro op _ h; exact h
  | cons o os ih =>
    intro op h1 h2
    unfold queuePoolPayments
    refine ih (fun x hx => h1 x (by simp [hx])) ?_
    split
    · split
      · exact queue_coins_nonneg h2 (by intro c hc; rw [List.mem_singleton.1 hc]; exact h1 o (by simp))
      · exact h2
    · exact h2

/-- What an order of pool `id` on side `dir` offers. -/
def poolOffer (id : Nat) (dir : Dir) (o : Order) : Int := if o.kind = .pool id ∧ o.dir = dir then o.offer else 0

theorem total_flatMap_own {α : Type} {key : α → Nat} {g : α → List Order} : ∀ {ps : List α}, (∀ e ∈ ps, ∀ o ∈ g e, o.kind = .pool (key e)) →
    (ps.map key).Nodup → ∀ e ∈ ps, ∀ dir, total (poolOffer (key e) dir) (ps.flatMap g) = total (poolOffer (key e) dir) (g e) := by
  intro ps
  induction ps with
  | nil => intro _ _ e he; cases he
  | cons a ps ih =>
    intro hk hnd e he dir
    rw [List.map_cons, List.nodup_cons] at hnd
    rw [List.flatMap_cons, total_append]
    rcases List.mem_cons.1 he with rfl | he
    · rw [total_zero (l := ps.flatMap g) (f := poolOffer (key e) dir)]
      · ring
      · intro o ho
        obtain ⟨e', he', ho'⟩ := List.mem_flatMap.1 ho
        have := hk e' (by simp [he']) o ho'
        unfold poolOffer
        rw [if_neg]
        rintro ⟨h1, _⟩
        rw [this] at h1
        injection h1 with h1
        exact hnd.1 (List.mem_map.2 ⟨e', he', h1⟩)
    · rw [ih (fun e' he' => hk e' (by simp [he'])) hnd.2 e he dir, total_zero (l := g a) (f := poolOffer (key e) dir)]
      · ring
      · intro o ho
        have := hk a (by simp) o ho
        unfold poolOffer
        rw [if_neg]
        rintro ⟨h1, _⟩
        rw [this] at h1
        injection h1 with h1
        exact hnd.1 (List.mem_map.2 ⟨e, he, h1.symm⟩)

/-- The orders of one pool at the single price. -/
def singleOwn (mp : Int) (e : Nat × Pool) : List Order :=
  (if 0 < (e.2.buyAmountOver mp).getD 0 then [newPoolOrder e.1 .buy mp ((e.2.buyAmountOver mp).getD 0)] else []) ++
    (if 0 < (e.2.sellAmountUnder mp).getD 0 then [newPoolOrder e.1 .sell mp ((e.2.sellAmountUnder mp).getD 0)] else [])

theorem singlePrice_flat {mp : Int} : ∀ {ps : List (Nat × Pool)} {pos : List Order}, singlePriceOrders mp ps = some pos →
    pos = ps.flatMap (singleOwn mp) := by
  intro ps
  induction ps with
  | nil => intro pos h; simp only [singlePriceOrders, Option.some.injEq] at h; subst h; rfl
  | cons e ps ih =>
    obtain ⟨id, p⟩ := e
    intro pos h
    unfold singlePriceOrders at h
    split at h
    · rename_i b sl rest h1 h2 h3
      have h := Option.some.inj h
      subst h
      rw [List.flatMap_cons, ← ih h3]
      unfold singleOwn
      rw [h1, h2]
      simp
    · cases h

theorem singleOwn_kind {mp : Int} {e : Nat × Pool} : ∀ o ∈ singleOwn mp e, o.kind = .pool e.1 := by
  intro o ho
  unfold singleOwn at ho
  rcases List.mem_append.1 ho with ho | ho <;>
    (split at ho
     · rw [List.mem_singleton.1 ho]; rfl
     · cases ho)

theorem singleOwn_offers {mp : Int} {e : Nat × Pool} (hmp : 0 < mp) (hx : 0 ≤ e.2.rx) (hy : 0 ≤ e.2.ry) :
    total (poolOffer e.1 .buy) (singleOwn mp e) ≤ e.2.rx ∧ total (poolOffer e.1 .sell) (singleOwn mp e) ≤ e.2.ry := by
  have hb : 0 < (e.2.buyAmountOver mp).getD 0 → quoteCeil mp ((e.2.buyAmountOver mp).getD 0) ≤ e.2.rx := by
    intro h
    cases hb : e.2.buyAmountOver mp with
    | none => rw [hb] at h; simp at h
    | some b =>
      obtain ⟨f1, f2⟩ := buyAmountOver_facts hx hy hmp hb
      exact quoteCeil_le (Int.mul_nonneg (le_of_lt hmp) f1) f2
  have hs : 0 < (e.2.sellAmountUnder mp).getD 0 → (e.2.sellAmountUnder mp).getD 0 ≤ e.2.ry := by
    intro h
    cases hb : e.2.sellAmountUnder mp with
    | none => rw [hb] at h; simp at h
    | some b => exact (sellAmountUnder_facts hy (fun _ => hx) hb).2.1
  unfold singleOwn
  rw [total_append, total_append]
  generalize (e.2.buyAmountOver mp).getD 0 = b at *
  generalize (e.2.sellAmountUnder mp).getD 0 = sl at *
  by_cases h1 : 0 < b <;> by_cases h2 : 0 < sl <;>
    simp only [h1, h2, if_true, if_false, total, List.map_cons, List.map_nil, List.sum_cons, List.sum_nil, poolOffer, newPoolOrder, newBaseOrder,
      offerCoinAmount, reduceCtorEq, and_false, and_true] <;>
    (constructor <;> first | omega | (have := hb h1; omega) | (have := hs h2; omega))

theorem poolOrders_offers {sqrt : Int → Int} (hsq : ∀ d, 0 ≤ d → 0 ≤ sqrt d) {e : Nat × Pool} {lo hi : Int} {prec : Nat} (hlo : 0 < lo) (hhi : 0 < hi)
    (hx : 0 ≤ e.2.rx) (hy : 0 ≤ e.2.ry) :
    total (poolOffer e.1 .buy) (poolOrders sqrt e.1 e.2 lo hi prec) ≤ e.2.rx ∧ total (poolOffer e.1 .sell) (poolOrders sqrt e.1 e.2 lo hi prec) ≤ e.2.ry := by
  obtain ⟨h1, h2⟩ := Props.C11_offers_within_reserves sqrt hsq e.1 e.2 lo hi prec hx hy hlo hhi
  unfold poolOrders
  rw [total_append, total_append]
  have b1 : total (poolOffer e.1 .buy) (poolBuyOrders sqrt e.1 e.2 lo hi prec) = Props.totalOffer (poolBuyOrders sqrt e.1 e.2 lo hi prec) := by
    unfold Props.totalOffer
    refine total_congr' (g := fun o : Order => o.offer) fun o ho => ?_
    obtain ⟨x, _, rfl⟩ := List.mem_map.1 ho
    simp [poolOffer, newPoolOrder, newBaseOrder]
  have b2 : total (poolOffer e.1 .sell) (poolBuyOrders sqrt e.1 e.2 lo hi prec) = 0 := total_zero fun o ho => by
    obtain ⟨x, _, rfl⟩ := List.mem_map.1 ho
    simp [poolOffer, newPoolOrder, newBaseOrder]
  have b3 : total (poolOffer e.1 .sell) (poolSellOrders sqrt e.1 e.2 lo hi prec) = Props.totalOffer (poolSellOrders sqrt e.1 e.2 lo hi prec) := by
    unfold Props.totalOffer
    refine total_congr' (g := fun o : Order => o.offer) fun o ho => ?_
    obtain ⟨x, _, rfl⟩ := List.mem_map.1 ho
    simp [poolOffer, newPoolOrder, newBaseOrder]
  have b4 : total (poolOffer e.1 .buy) (poolSellOrders sqrt e.1 e.2 lo hi prec) = 0 := total_zero fun o ho => by
    obtain ⟨x, _, rfl⟩ := List.mem_map.1 ho
    simp [poolOffer, newPoolOrder, newBaseOrder]
  omega

/-- The pool orders of a matched book stay within the reserves of their pools. -/
theorem book_offers {sqrt : Int → Int} (hsq : ∀ d, 0 ≤ d → 0 ≤ sqrt d) {os : List Order} {pools : List (Nat × Pool)} {out : MatchOut}
    (B : MatchedBook sqrt os pools out) (hnd : (pools.map (·.1)).Nodup) (hr : ∀ e ∈ pools, 0 ≤ e.2.rx ∧ 0 ≤ e.2.ry) :
    ∀ e ∈ pools, total (poolOffer e.1 .buy) B.pos ≤ e.2.rx ∧ total (poolOffer e.1 .sell) B.pos ≤ e.2.ry := by
  intro e he
  rcases B.origin with ⟨mp, hs, _⟩ | ⟨lo, hi, prec, hlo, hhi, hp⟩
  · by_cases hmp : 0 < mp
    · have hk := singlePrice_flat hs
      have h1 := total_flatMap_own (g := singleOwn mp) (key := fun e : Nat × Pool => e.1) (ps := pools) (fun e _ => singleOwn_kind) hnd e he
      rw [hk]
      rw [h1, h1]
      exact singleOwn_offers hmp (hr e he).1 (hr e he).2
    · cases hpos : B.pos with
      | nil => exact ⟨(hr e he).1, (hr e he).2⟩
      | cons o l =>
        exfalso
        have ho : o ∈ B.pos := by rw [hpos]; simp
        obtain ⟨e', he', d, price, amt, rfl, hprice, _⟩ := B.pool o ho
        have := singlePrice_price hs _ ho
        have e1 : (newPoolOrder e'.1 d price amt).price = price := rfl
        rw [e1] at this
        omega
  · have h1 := total_flatMap_own (g := fun p : Nat × Pool => poolOrders sqrt p.1 p.2 lo hi prec) (key := fun e : Nat × Pool => e.1) (ps := pools)
      (fun e _ => poolOrders_kind) hnd e he
    rw [hp]
    rw [h1, h1]
    exact poolOrders_offers hsq hlo hhi (hr e he).1 (hr e he).2

theorem heapOf_get {os : List Order} {i : Nat} (hi : i < os.length) : heapOf os i = os[i] := by
  unfold heapOf
  simp [List.getD_eq_getElem?_getD, hi]

/-- A sublist of distinct positions has no larger sum. -/
theorem sum_book_le {os : List Order} {f : Order → Int} (h0 : ∀ o ∈ os, 0 ≤ f o) :
    ((bookOf os).orders.map (fun p => f (heapOf os p))).sum ≤ total f os := by
  obtain ⟨b1, b2, _⟩ := book_orders_nodup (heapOf os) (List.nodup_range (n := os.length))
  have b1 : (bookOf os).orders.Nodup := b1
  have b2 : ∀ p ∈ (bookOf os).orders, p ∈ List.range os.length := b2
  have e1 : os = (List.range os.length).map (heapOf os) := by
    apply List.ext_getElem
    · simp
    · intro i h1 h2
      rw [List.getElem_map, List.getElem_range]
      rw [heapOf_get h1]
  have e2 : total f os = ((List.range os.length).map (fun p => f (heapOf os p))).sum := by
    unfold total
    conv_lhs => rw [e1]
    rw [List.map_map]; rfl
  rw [e2]
  have hs : (bookOf os).orders.Subperm (List.range os.length) := b1.subperm b2
  obtain ⟨l, hl1, hl2⟩ := hs
  rw [← (hl1.map (fun p => f (heapOf os p))).sum_eq]
  refine List.Sublist.sum_le_sum (hl2.map _) ?_
  intro x hx
  obtain ⟨p, hp, rfl⟩ := List.mem_map.1 hx
  have hp := List.mem_range.1 hp
  rw [heapOf_get hp]
  exact h0 _ (List.getElem_mem _)

/-- What the pools pay for their matched orders is covered by their reserves. -/
theorem pools_pay {sqrt : Int → Int} (hsq : ∀ d, 0 ≤ d → 0 ≤ sqrt d) {os : List Order} {pools : List (Nat × Pool)} {out : MatchOut}
    (B : MatchedBook sqrt os pools out) (hnd : (pools.map (·.1)).Nodup) (hr : ∀ e ∈ pools, 0 ≤ e.2.rx ∧ 0 ≤ e.2.ry)
    (hl : ∀ o ∈ os, Live o) (hu : ∀ o ∈ os, ∀ id, o.kind ≠ .pool id) {pair : Pair} (hne : pair.base ≠ pair.quote) {b : Bank}
    (hb : ∀ e ∈ pools, b.bal (.poolReserve e.1) pair.quote = e.2.rx ∧ b.bal (.poolReserve e.1) pair.base = e.2.ry)
    (h0 : ∀ a d, 0 ≤ b.bal a d) : ∃ b', BulkOp.run (queuePoolPayments pair out.orders []) b = some b' := by
  have hlive : ∀ p ∈ List.range (os ++ B.pos).length, Live (heapOf (os ++ B.pos) p) :=
    all_live hl (fun o ho => by obtain ⟨e, _, h⟩ := B.pool o ho; exact h.live)
  obtain ⟨b1, b2, _⟩ := book_orders_nodup (heapOf (os ++ B.pos)) (List.nodup_range (n := (os ++ B.pos).length))
  have b2 : ∀ p ∈ (bookOf (os ++ B.pos)).orders, p ∈ List.range (os ++ B.pos).length := b2
  have hlive' : ∀ y ∈ out.orders, Live y := by
    intro y hy
    rw [B.orders] at hy
    obtain ⟨p, hp, rfl⟩ := List.mem_map.1 hy
    exact B.fair.live p (hlive p (b2 p hp))
  rw [run_eq_sendAll]
  refine sendAll_isSome (queuePool_coins (fun x hx => (hlive' x hx).paid_nonneg) (by simp)) ?_
  rintro a d ⟨t, ht, rfl⟩
  obtain ⟨id, hid⟩ := queuePool_src (os := out.orders) (op := []) (by simp) t ht
  rw [hid, queuePool_outflow]
  have h00 : outflow [] (.poolReserve id) d = 0 := rfl
  rw [h00, Int.zero_add]
  -- the payments of pool `id` in `d` are bounded by its offers on one side
  have hside : ∀ dir, d = pair.offerDenom dir → total (fun y => poolOut pair y (.poolReserve id) d) out.orders ≤ total (poolOffer id dir) B.pos := by
    intro dir hdir
    have step1 : total (fun y => poolOut pair y (.poolReserve id) d) out.orders ≤
        ((bookOf (os ++ B.pos)).orders.map (fun p => poolOffer id dir (heapOf (os ++ B.pos) p))).sum := by
      unfold total
      rw [B.orders, List.map_map]
      apply List.sum_le_sum
      intro p hp
      have hst := B.fair.static p
      have hlv := B.fair.live p (hlive p (b2 p hp))
      simp only [Function.comp, poolOut]
      unfold poolOffer
      rw [← hst.2.2.2.2, ← hst.1, ← hst.2.2.2.1]
      cases hk : (B.st.heap p).kind with
      | user a c => simp
      | pool id' =>
        simp only
        by_cases hid' : id = id'
        · subst hid'
          have hof : 0 ≤ (B.st.heap p).offer := le_trans hlv.paid_nonneg hlv.paid_le
          by_cases hd : (B.st.heap p).dir = dir
          · simp only [hd, and_self, if_true, if_pos hdir]
            split
            · exact hlv.paid_le
            · exact hof
          · have hne' : d ≠ pair.offerDenom (B.st.heap p).dir := by
              rw [hdir]
              cases dir <;> cases hq : (B.st.heap p).dir <;> simp_all [Pair.offerDenom]
              exact fun e => hne e.symm
            simp [hne', hd]
        · have : Addr.poolReserve id ≠ Addr.poolReserve id' := fun e => hid' (by injection e)
          have h2 : ¬ (OKind.pool id' = OKind.pool id ∧ (B.st.heap p).dir = dir) := fun e => hid' (by have := e.1; injection this with this; exact this.symm)
          simp only [if_neg this, if_neg h2]
          split <;> exact le_refl _
    have step2 := sum_book_le (os := os ++ B.pos) (f := poolOffer id dir) (by
      intro o ho
      unfold poolOffer
      split
      · have : Live o := by
          rcases List.mem_append.1 ho with h | h
          · exact hl o h
          · obtain ⟨e, _, h⟩ := B.pool o h; exact h.live
        exact le_trans this.paid_nonneg this.paid_le
      · exact le_refl _)
    rw [total_append, total_zero (l := os) (f := poolOffer id dir) (fun o ho => by
      unfold poolOffer; rw [if_neg (fun h => hu o ho id h.1)])] at step2
    omega
  by_cases hin : ∃ e ∈ pools, e.1 = id
  · obtain ⟨e, he, rfl⟩ := hin
    have ho := book_offers hsq B hnd hr e he
    have hbal := hb e he
    by_cases h1 : d = pair.quote
    · have := hside .buy (by rw [h1]; rfl)
      rw [h1] at this ⊢
      omega
    · by_cases h2 : d = pair.base
      · have := hside .sell (by rw [h2]; rfl)
        rw [h2] at this ⊢
        omega
      · rw [total_zero]
        · exact h0 _ _
        · intro y _
          unfold poolOut
          split
          · rfl
          · split
            · split
              · rw [if_neg]
                cases y.dir <;> simp [Pair.offerDenom, h1, h2]
              · rfl
            · rfl
  · rw [total_zero]
    · exact h0 _ _
    · intro y hy
      unfold poolOut
      split
      · rfl
      · rename_i id' hk
        rw [if_neg (c := Addr.poolReserve id = Addr.poolReserve id')]
        · simp
        · intro e
          have e : id = id' := by injection e
          rw [B.orders] at hy
          obtain ⟨p, hp, rfl⟩ := List.mem_map.1 hy
          rw [(B.fair.static p).2.2.2.2] at hk
          have hlt := List.mem_range.1 (b2 p hp)
          by_cases hlen : p < os.length
          · rw [heapOf_left hlen] at hk
            exact hu _ (List.getElem_mem _) _ hk
          · obtain ⟨e', he', h⟩ := B.pool _ (heapOf_right (by omega) hlt)
            rw [h.fresh.1] at hk
            injection hk with hk
            exact hin ⟨e', he', by rw [hk, e]⟩

end Verif.Dex
