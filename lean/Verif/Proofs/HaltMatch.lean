import Verif.Proofs.HaltPay
import Verif.Spec.Halt
import Verif.Proofs.MatchTotal
import Verif.Props.Sides
/-! # The matching of a pair whose prices are at least one does not fail (C61) -/
namespace Verif.Dex
open Verif Verif.Amm Verif.Spec

variable {s s' : State}

theorem matching_total (hw : WF s) {env : Env} (hsq : ∀ d, 0 ≤ d → 0 ≤ env.sqrt d) {pair : Pair} (hp : pair ∈ s.pairs) (hpr : SaneParams s.params)
    (ho : ∀ o ∈ s.orders, o.pairId = pair.id → Explained o) (hl : ∀ lp, pair.lastPrice = some lp → 10 ^ 18 ≤ lp)
    (hsell : ∀ o ∈ s.orders, o.pairId = pair.id → Unfinished o → o.dir = .sell → 10 ^ 18 ≤ o.price)
    (hpool : ∀ pool ∈ s.pools, pool.pairId = pair.id → pool.disabled = false → PoolFine env s pair pool)
    (hdust : s.params.dustCollector ≠ .pairEscrow pair.id) (hslack : ∀ d, 0 ≤ escrowSlack s pair.id d) :
    ∃ s', executeMatching env pair s = some s' ∧ s'.shortfall = s.shortfall := by
  obtain ⟨⟨s1, os⟩, hc⟩ := collect_total hw pair.id hslack
  have hC := collect_all hw pair.id hc
  have hL := fun a d => collect_ledger hw pair.id hc a d
  have hO : os = (bookOrders s pair.id).map newUserOrder := by
    have := collect_list _ _ _ _ hc
    rw [List.nil_append] at this
    exact this
  have hR := fun id d => collect_reserve hw pair.id hc id d
  simp only at hL hR
  obtain ⟨⟨s2, pools⟩, hpl⟩ := collectPool_total (env := env) (pair := pair) hC.wf (by
    intro pool h1 h2 h3
    rw [hC.frame.pools] at h1
    obtain ⟨ap, hap, _⟩ := hpool pool h1 h2 h3
    simp only
    rw [(hR pool.id pair.quote).1, (hR pool.id pair.base).1, (hR pool.id pair.base).2, hap]
    rfl)
  have hP := collectPool_all hC.wf hpl
  have hprm : s2.params = s.params := hP.params.trans hC.frame.params
  have hsf : s2.shortfall = s.shortfall := hP.shortfall.trans hC.frame.shortfall
  have hpools : ∀ e ∈ pools, ∃ pool ∈ s.pools, pool.pairId = pair.id ∧ pool.disabled = false ∧ e.1 = pool.id ∧
      ammPool env pool (s.bank.bal (.poolReserve pool.id) pair.quote) (s.bank.bal (.poolReserve pool.id) pair.base)
        (s.bank.supply (.pool pool.id)) = some e.2 ∧ e.2.isDepleted = false := by
    intro e he
    obtain ⟨pool, p1, p2, p3, p4, p5, p6, p7⟩ := hP.src e he
    rw [hC.frame.pools] at p7
    have q1 := hR pool.id pair.quote
    have q2 := hR pool.id pair.base
    simp only at p5
    rw [q1.1, q2.1, q1.2] at p5
    exact ⟨pool, p7, p2, p3, p4, p5, p6⟩
  have hprice : ∀ e ∈ pools, ∃ pp, e.2.price = some pp ∧ 10 ^ 18 ≤ pp := by
    intro e he
    obtain ⟨pool, p1, p2, p3, p4, p5, p6⟩ := hpools e he
    obtain ⟨ap, hap, hpp⟩ := hpool pool p1 p2 p3
    rw [p5] at hap
    cases hap
    exact hpp p6
  have hone : ((10 : Int) ^ 18) = Dec.one := rfl
  have hlive : ∀ x ∈ os, Live x := by
    rw [hO]
    intro x hx
    obtain ⟨o, hm, rfl⟩ := List.mem_map.1 hx
    unfold bookOrders State.ordersOf at hm
    have := List.mem_filter.1 (List.mem_filter.1 hm).1
    exact newUser_live (ho o this.1 (by simpa using this.2))
  have hfresh : ∀ x ∈ os, x.openAmt = x.amount ∧ x.paid = 0 ∧ x.received = 0 := by
    rw [hO]
    intro x hx
    obtain ⟨o, _, rfl⟩ := List.mem_map.1 hx
    exact ⟨rfl, rfl, rfl⟩
  have hsells : ∀ x ∈ os, x.dir = .sell → Dec.one ≤ x.price := by
    rw [hO]
    intro x hx hd
    obtain ⟨o, hm, rfl⟩ := List.mem_map.1 hx
    unfold bookOrders State.ordersOf at hm
    have h1 := List.mem_filter.1 hm
    have h2 := List.mem_filter.1 h1.1
    have h3 : o.status.isMatchable = true := by
      have := h1.2
      simp only [Bool.and_eq_true] at this
      exact this.1
    refine hsell o h2.1 (by simpa using h2.2) ?_ hd
    unfold Unfinished
    revert h3
    cases o.status <;> simp [OStatus.isMatchable]
  have hu : ∀ o ∈ os, ∀ id, o.kind ≠ .pool id := by
    rw [hO]
    intro o ho id
    obtain ⟨r, _, rfl⟩ := List.mem_map.1 ho
    intro hk; cases hk
  have hr : ∀ e ∈ pools, 0 ≤ e.2.rx ∧ 0 ≤ e.2.ry := by
    intro e he
    obtain ⟨pool, p1, p2, p3, p4, p5, p6⟩ := hpools e he
    have := ammPool_fields p5
    rw [this.1, this.2.1]
    exact ⟨hw.bankNN _ _, hw.bankNN _ _⟩
  have hlast : ∀ p, pair.lastPrice = some p → 10 ^ 18 < 2 * (p * (10 ^ 18 - s2.params.maxPriceLimitRatio)) := by
    intro p hpl
    have h1 := hl p hpl
    rw [hprm]
    have h2 := hpr.ratio
    have h3 : 1 ≤ 10 ^ 18 - s.params.maxPriceLimitRatio := by have := h2.2; rw [← hone] at this; omega
    nlinarith
  have hpr2 : SaneParams s2.params := by rw [hprm]; exact hpr
  obtain ⟨out, hk⟩ := keeperMatch_isSome (env := env) hpr2 (pools := pools) hlive hlast (fun e he => by
    obtain ⟨pp, h1, h2⟩ := hprice e he
    exact ⟨pp, h1, by omega⟩)
  cases out with
  | none =>
    refine ⟨s2.setPair { pair with batchId := pair.batchId + 1 }, ?_, hsf⟩
    unfold executeMatching
    rw [hc]; simp only; rw [hpl]; simp only; rw [hk]
  | some out =>
    have hlast0 : ∀ p, pair.lastPrice = some p → 0 < p := fun p hpl => by have := hl p hpl; omega
    have hpn : ∀ e ∈ pools, ∀ pp, e.2.price = some pp → 0 ≤ pp := by
      intro e he pp hpp
      obtain ⟨q, h1, h2⟩ := hprice e he
      rw [h1] at hpp; cases hpp; omega
    have hp1 : ∀ e ∈ pools, ∀ pp, e.2.price = some pp → Dec.one ≤ pp := by
      intro e he pp hpp
      obtain ⟨q, h1, h2⟩ := hprice e he
      rw [h1] at hpp; cases hpp; exact h2
    obtain ⟨B⟩ := keeperMatch_fair hpr2 hlive hlast0 hpn hk
    have himb := keeperMatch_conserves hsq hpr2 hlive hlast0 (fun o ho => (hfresh o ho).1) hr hp1 hsells hk
    have hone2 : OneSided out.orders := by
      cases hlp : pair.lastPrice with
      | none => rw [hlp] at hk; exact Props.C54_one_side_first_batch hu hP.distinct hk
      | some L => rw [hlp] at hk; exact Props.C54_one_side_high_price hsq hpr2 (hl L hlp) hlive hu hP.distinct hr hpn hk
    have hfr : ∀ o ∈ s2.orders, o.pairId = pair.id → o.status ≠ .notExecuted := by
      intro o ho e1 e2
      rw [hP.orders] at ho
      cases hC.fresh o ho e1 e2
    obtain ⟨b1, b2, _⟩ := book_orders_nodup (heapOf (os ++ B.pos)) (List.nodup_range (n := (os ++ B.pos).length))
    have b2 : ∀ p ∈ (bookOf (os ++ B.pos)).orders, p ∈ List.range (os ++ B.pos).length := b2
    have hliveAll : ∀ p ∈ List.range (os ++ B.pos).length, Live (heapOf (os ++ B.pos) p) :=
      all_live hlive (fun o ho => by obtain ⟨e, _, h⟩ := B.pool o ho; exact h.live)
    have hliveOut : ∀ y ∈ out.orders, Live y := by
      intro y hy
      rw [B.orders] at hy
      obtain ⟨p, hp, rfl⟩ := List.mem_map.1 hy
      exact B.fair.live p (hliveAll p (b2 p hp))
    have hp2 : pair ∈ s2.pairs := by rw [hP.pairs, hC.frame.pairs]; exact hp
    obtain ⟨pos, h', k1, k2, k3⟩ := keeperMatch_ids hk
    obtain ⟨_, u2⟩ := matched_users (fun o ho => (k1 o ho).imp fun _ h => h.2) hC.distinct k2
    rw [← k3] at u2
    have hrec : ∀ x ∈ out.orders, ∀ oid b, x.kind = .user oid b → ∃ r ∈ s2.orders, r.pairId = pair.id ∧ r.id = oid ∧ r.done = false ∧
        r.dir = x.dir ∧ x.offer = r.remaining := by
      intro x hx oid b hkx
      rw [B.orders] at hx
      obtain ⟨p, hpo, rfl⟩ := List.mem_map.1 hx
      have hst := B.fair.static p
      have hlt := List.mem_range.1 (b2 p hpo)
      by_cases hlen : p < os.length
      · rw [heapOf_left hlen] at hst
        obtain ⟨r, r1, r2, r3, r4, r5, _⟩ := hC.src _ (List.getElem_mem hlen)
        rw [r5] at hst
        refine ⟨r, by rw [hP.orders]; exact r1, r2, ?_, r3, ?_, ?_⟩
        · have := hst.2.2.2.2
          rw [hkx] at this
          simp only [newUserOrder, newBaseOrder, OKind.user.injEq] at this
          exact this.1.symm
        · rw [hst.1]; rfl
        · rw [hst.2.2.2.1]; rfl
      · exfalso
        obtain ⟨e, _, h⟩ := B.pool _ (heapOf_right (by omega) hlt)
        rw [hst.2.2.2.2, h.fresh.1] at hkx
        cases hkx
    have hA : Applicable pair s2 out.orders := by
      refine ⟨fun x hx => ⟨(hliveOut x hx).paid_nonneg, (hliveOut x hx).received_nonneg⟩, ?_, ?_⟩
      · intro x hx oid b hk r hr e1 e2
        obtain ⟨r', r1, r2, r3, r4, r5, r6⟩ := hrec x hx oid b hk
        have : r = r' := hP.wf.ordersS.inj hr r1 (by simp [OrderRec.key, e1, e2, r2, r3])
        subst this
        obtain ⟨_, _, q, q1, q2, q3, q4⟩ := hP.wf.ordsOk r hr
        have : q = pair := hP.wf.key_pair q1 hp2 (by rw [q2, e1])
        subst this
        rw [← r5]
        exact ⟨q3, q4, by rw [← r6]; exact (hliveOut x hx).paid_le⟩
      · intro x hx y hy m1 m2 id k1 k2
        exact hone2 x hx y hy id k1 k2 (by simpa [Order.isMatched, HasTraded] using m1) (by simpa [Order.isMatched, HasTraded] using m2)
    obtain ⟨s3, h3⟩ := apply_total hP.wf (pair := pair) (hP.wf.getPair_iff.2 ⟨hp2, rfl⟩) (os := out.orders) (diff := out.diff)
      (by
        intro x hx oid b hk
        obtain ⟨r, r1, r2, r3, r4, _⟩ := hrec x hx oid b hk
        exact ⟨r, r1, r2, r3, r4⟩) u2 hfr hA (by rw [hprm]; exact hdust) B.diff_nonneg
      (by
        intro d
        rw [← ledger_escrow, ledger_congr (s := s1) (congrArg Bank.bal hP.bank) hP.orders hP.deposits hP.withdraws, hL, ledger_escrow]
        exact hslack d)
      (by
        intro d
        rw [book_flow B pair (hw.pairNe pair hp).1 hfresh d, himb]
        simp)
      (pools_pay hsq B hP.distinct hr hlive hu (hw.pairNe pair hp).1 (by
        intro e he
        obtain ⟨pool, p1, p2, p3, p4, p5, p6⟩ := hpools e he
        have := ammPool_fields p5
        rw [hP.bank, this.1, this.2.1, p4]
        exact ⟨(hR pool.id pair.quote).1, (hR pool.id pair.base).1⟩) hP.wf.bankNN)
    have hfrm := applyMatchResult_spec hP.wf (pair := pair) (by
        intro x hx oid b hk
        obtain ⟨r, r1, r2, r3, r4, _⟩ := hrec x hx oid b hk
        exact ⟨r, r1, r2, r3, r4⟩) u2 hfr h3
    refine ⟨_, by
      unfold executeMatching
      rw [hc]; simp only; rw [hpl]; simp only; rw [hk]; simp only; rw [h3], ?_⟩
    show (fun id => s3.shortfall id + _) = _
    rw [himb]
    funext id
    rw [hfrm.frame.shortfall, hsf]
    simp

end Verif.Dex
