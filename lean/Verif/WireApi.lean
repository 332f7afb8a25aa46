import Verif.WireProps
import Verif.ApiEnd
/-!
# The API over the byte stream: C70 for single calls, C71
-/

namespace Cellular.Props
open Cellular Cellular.Spec Cellular.Pktio Cellular.Wire Cellular.Tok
open Cellular.Api (Req Reply World Time SimLock Psm EdrxList ModemInfo SimInfo Plmn)

/-- The library's requests go through the transport to the modem `m`; every request made so far was one the packet
layer accepts.  (A request that no `Wire.reply` exists for is undefined behaviour; C70 excludes it.) -/
structure OnWire (w : World) (cfg : Cfg) (m : Wire.Modem) : Prop where
  modem : ∀ h r, w.modem h r = (Wire.reply cfg m h r).getD .timeout
  sent : ∀ x ∈ w.sent, ValidReq x

theorem onWire_answer {w : World} {cfg : Cfg} {m : Wire.Modem} {ans : List Req → Req → Reply} (hp : PlainPort cfg)
    (hm : Speaks cfg m ans) (hw : OnWire w cfg m) (h : List Req) (hh : ∀ x ∈ h, ValidReq x) (r : Req) (hr : ValidReq r) :
    w.modem h r = ans h r := by
  rw [hw.modem, C70_bytes_to_reply cfg m ans hp hm h hh r hr]
  rfl

theorem valid_query {c p : Str} (t : Api.CmdType) (h1 : c.length ≤ 200) (h2 : p ≠ [] ∧ p.length < 32 ∧ NoNul p) :
    ValidReq ⟨c, t, some p⟩ :=
  ⟨h1, fun _ => by simp, fun k hk => by cases hk; exact h2⟩

theorem valid_plain {c : Str} (t : Api.CmdType) (h1 : c.length ≤ 200) (ht : t = .noResult ∨ t = .woPrefix) :
    ValidReq ⟨c, t, none⟩ :=
  ⟨h1, fun h => by rcases ht with rfl | rfl <;> simp [typeOf, NeedsPrefix] at h, fun k hk => by cases hk⟩

theorem valid_append {h : List Req} {l : List Req} (hh : ∀ x ∈ h, ValidReq x) (hl : ∀ x ∈ l, ValidReq x) :
    ∀ x ∈ h ++ l, ValidReq x := by
  intro x hx
  rcases List.mem_append.mp hx with g | g
  · exact hh x g
  · exact hl x g

theorem valid_clock : ValidReq clockQuery := valid_query _ (by decide) (by decide)
theorem valid_lock : ValidReq lockQuery := valid_query _ (by decide) (by decide)
theorem valid_psm : ValidReq psmQuery := valid_query _ (by decide) (by decide)
theorem valid_edrx : ValidReq edrxQuery := valid_query _ (by decide) (by decide)
theorem valid_fw : ValidReq fwQuery := valid_plain _ (by decide) (Or.inr rfl)
theorem valid_imei : ValidReq imeiQuery := valid_plain _ (by decide) (Or.inr rfl)
theorem valid_model : ValidReq modelQuery := valid_plain _ (by decide) (Or.inr rfl)
theorem valid_manuf : ValidReq manufQuery := valid_plain _ (by decide) (Or.inr rfl)

/-- C70, `Cellular_GetNetworkTime` from the transport to the caller: if the bytes the modem sends while the clock query
is pending contain the line `+CCLK: "..."` and a success code - in any pieces, between any unsolicited codes, after any
requests -, the caller gets exactly that time, and later calls can go on. -/
theorem C70_network_time (lm : Nat) (hlm : 2 ^ 31 - 1 ≤ lm) (w : World) (ho : LibraryOpen w)
    {cfg : Cfg} {m : Wire.Modem} {ans : List Req → Req → Reply} (hp : PlainPort cfg) (hm : Speaks cfg m ans)
    (hw : OnWire w cfg m)
    {y mo d h mi s z : Str} {vy vmo vd vh vmi vs vz : Nat}
    (hy : Numeral 10 y vy) (hmo : Numeral 10 mo vmo) (hd : Numeral 10 d vd) (hh : Numeral 10 h vh)
    (hmi : Numeral 10 mi vmi) (hs : Numeral 10 s vs) (hz : Numeral 10 z vz)
    (by' : vy ≤ 65535) (bmo : vmo ≤ 255) (bd : vd ≤ 255) (bh : vh ≤ 255) (bmi : vmi ≤ 255)
    (bs : vs ≤ 255) (bz : vz < 2 ^ 31) (neg : Bool) (body : Str) (rest : List Str) (old : Time)
    (hl : (str "+CCLK" ++ 58 :: body).length ≤ 256)
    (hbody : body.filter (fun b => !decide (White b)) = quoted (clockText y mo d h mi s neg z))
    (ha : ans w.sent clockQuery = .lines ((str "+CCLK" ++ 58 :: body) :: rest)) :
    (Api.getNetworkTime lm w (some old)).err = .success ∧
    (Api.getNetworkTime lm w (some old)).out = some
      { month := vmo, day := vd, hour := vh, minute := vmi, second := vs, year := vy,
        timeZone := if neg then -(vz : Int) else vz } ∧
    (∀ x ∈ (Api.getNetworkTime lm w (some old)).world.sent, ValidReq x) := by
  have hq := onWire_answer hp hm hw w.sent hw.sent clockQuery valid_clock
  rw [ha] at hq
  obtain ⟨h1, h2, h3⟩ := C56_network_time_query lm hlm w ho hy hmo hd hh hmi hs hz by' bmo bd bh bmi bs bz neg body rest
    old hl hbody hq
  refine ⟨h1, h2, ?_⟩
  rw [h3]
  exact valid_append hw.sent (by intro x hx; rw [List.mem_singleton.mp hx]; exact valid_clock)

/-- C70, `Cellular_GetSimCardLockStatus` from the transport to the caller. -/
theorem C70_sim_lock (w : World) (ho : LibraryOpen w) {cfg : Cfg} {m : Wire.Modem} {ans : List Req → Req → Reply}
    (hp : PlainPort cfg) (hm : Speaks cfg m ans) (hw : OnWire w cfg m) (old : SimLock) (body : Str) (rest : List Str)
    (hl : (str "+CPIN" ++ 58 :: body).length ≤ 256) (tok tail : Str) (hc : NoComma tok)
    (hb : noWhite body = tok ∧ tok ≠ [] ∨ noWhite body = tok ++ 44 :: tail)
    (ha : ans w.sent lockQuery = .lines ((str "+CPIN" ++ 58 :: body) :: rest)) :
    (Api.getSimCardLockStatus w (some old)).err = .success ∧
    ((Api.getSimCardLockStatus w (some old)).out = some .ready ↔ tok = str "READY") := by
  have hq := onWire_answer hp hm hw w.sent hw.sent lockQuery valid_lock
  rw [ha] at hq
  obtain ⟨h1, h2, -⟩ := C51_sim_query_partial w ho old body rest hl tok tail hc hb hq
  exact ⟨h1, h2⟩

/-- C70, `Cellular_GetPsmSettings` from the transport to the caller. -/
theorem C70_psm (lm : Nat) (hlm : 2 ^ 31 - 1 ≤ lm) (w : World) (ho : LibraryOpen w) {cfg : Cfg} {m : Wire.Modem}
    {ans : List Req → Req → Reply} (hp : PlainPort cfg) (hm : Speaks cfg m ans) (hw : OnWire w cfg m) (old : Psm)
    {t0 t1 t2 t3 t4 : Str} {v0 v1 v2 v3 v4 s1 s2 s3 s4 : Nat}
    (h0 : Padded 2 t0 v0) (h1 : Padded 2 t1 v1) (h2 : Padded 2 t2 v2) (h3 : Padded 2 t3 v3)
    (h4 : Padded 2 t4 v4) (b0 : v0 < 256) (b1 : v1 < 256) (b2 : v2 < 256) (b3 : v3 < 256) (b4 : v4 < 256)
    (d1 : timerSeconds unitT3412 v1 = some s1) (d2 : timerSeconds unitT3324 v2 = some s2)
    (d3 : timerSeconds unitT3412 v3 = some s3) (d4 : timerSeconds unitT3324 v4 = some s4)
    (body : Str) (rest : List Str) (hl : (str "+CPSMS" ++ 58 :: body).length ≤ 256)
    (hb : noQuote body = joinComma [t0, t1, t2, t3, t4])
    (ha : ans w.sent psmQuery = .lines ((str "+CPSMS" ++ 58 :: body) :: rest)) :
    (Api.getPsmSettings lm w (some old)).err = .success ∧
    (Api.getPsmSettings lm w (some old)).out = some ⟨v0, s1, s2, s3, s4⟩ := by
  have hq := onWire_answer hp hm hw w.sent hw.sent psmQuery valid_psm
  rw [ha] at hq
  obtain ⟨g1, g2, -⟩ := C47_psm_query_partial lm hlm w ho old h0 h1 h2 h3 h4 b0 b1 b2 b3 b4 d1 d2 d3 d4 body rest hl hb hq
  exact ⟨g1, g2⟩

/-- C70, `Cellular_GetEidrxSettings` from the transport to the caller (a response of several lines). -/
theorem C70_edrx (lm : Nat) (hlm : 2 ^ 31 - 1 ≤ lm) (w : World) (ho : LibraryOpen w) {cfg : Cfg} {m : Wire.Modem}
    {ans : List Req → Req → Reply} (hp : PlainPort cfg) (hm : Speaks cfg m ans) (hw : OnWire w cfg m)
    (old : EdrxList) {ls : List Str} {es : List (Nat × Nat)} (h : EdrxLines ls es) (hne : ls ≠ [])
    (h4 : es.length ≤ 4) (ha : ans w.sent edrxQuery = .lines ls) :
    ∃ r, Api.getEidrxSettings lm w (some old) = some r ∧ r.err = .success ∧
      r.out = some ⟨es.map (fun e => ⟨e.1, e.2⟩) ++ List.replicate (4 - es.length) ⟨0, 0⟩, es.length⟩ := by
  have hq := onWire_answer hp hm hw w.sent hw.sent edrxQuery valid_edrx
  rw [ha] at hq
  obtain ⟨r, g1, g2, g3, -⟩ := C48_edrx_query_partial lm hlm w ho old h hne h4 hq
  exact ⟨r, g1, g2, g3⟩

/-- C70, `Cellular_GetModemInfo` from the transport to the caller: four commands one after the other. -/
theorem C70_modem_info (w : World) (ho : LibraryOpen w) {cfg : Cfg} {m : Wire.Modem}
    {ans : List Req → Req → Reply} (hp : PlainPort cfg) (hm : Speaks cfg m ans) (hw : OnWire w cfg m) (p : ModemInfo)
    {lf li lo la fw model manuf : Str} {rf ri ro ra : List Str}
    (a1 : ans w.sent fwQuery = .lines (lf :: rf))
    (a2 : ans (w.sent ++ [fwQuery]) imeiQuery = .lines (li :: ri))
    (a3 : ans (w.sent ++ [fwQuery, imeiQuery]) modelQuery = .lines (lo :: ro))
    (a4 : ans (w.sent ++ [fwQuery, imeiQuery, modelQuery]) manufQuery = .lines (la :: ra))
    (h1 : Shows lf fw) (h2 : noWhite li ≠ [] ∧ li.length ≤ 256 ∧ NoNul li) (h3 : Shows lo model)
    (h4 : Shows la manuf) :
    ∃ r i, Api.getModemInfo w (some p) = some r ∧ r.err = .success ∧ r.out = some i ∧
      CStrAt i.fw 0 (fw.take 32) ∧ CStrAt i.imei 0 ((noWhite li).take 15) ∧
      CStrAt i.model 0 (model.take 10) ∧ CStrAt i.manuf 0 (manuf.take 20) := by
  have v1 : ∀ x ∈ w.sent ++ [fwQuery], ValidReq x := valid_append hw.sent (by simp [valid_fw])
  have v2 : ∀ x ∈ w.sent ++ [fwQuery, imeiQuery], ValidReq x := valid_append hw.sent (by simp [valid_fw, valid_imei])
  have v3 : ∀ x ∈ w.sent ++ [fwQuery, imeiQuery, modelQuery], ValidReq x :=
    valid_append hw.sent (by simp [valid_fw, valid_imei, valid_model])
  rw [← onWire_answer hp hm hw _ hw.sent _ valid_fw] at a1
  rw [← onWire_answer hp hm hw _ v1 _ valid_imei] at a2
  rw [← onWire_answer hp hm hw _ v2 _ valid_model] at a3
  rw [← onWire_answer hp hm hw _ v3 _ valid_manuf] at a4
  obtain ⟨r, i, g1, g2, g3, -, g4⟩ := C58_modem_info_values w ho p a1 a2 a3 a4 h1 h2 h3 h4
  exact ⟨r, i, g1, g2, g3, g4⟩

/-! ## A modem -/

/-- A modem that does not answer the first request, interleaves unsolicited codes with its later answers and cuts
everything at odd places. -/
def wireDemo : Wire.Modem :=
  { during := fun h r => if h = [] then [str "RI", str "NG\r\n"] else if r = clockQuery then
        [str "\r\n+CC", str "LK: \"24/01/02,03:04:05-06\"\r\nRING\r\n\r\nO", str "K\r\n"]
      else [str "RING\r", str "\nOK\r\n"]
    after := fun _ _ => [str "+CRE", str "G: 5\r\n"] }

def wireDemoAnswer : List Req → Req → Reply := fun h r =>
  if h = [] then .timeout
  else if r = clockQuery then .lines [str "+CCLK: \"24/01/02,03:04:05-06\""] else .lines []

theorem demo_ok (t : Pktio.CmdType) (p : Option Str) : Final (demoCfg 200) t p (str "OK") := by
  refine ⟨⟨?_, ?_⟩, Or.inl (Or.inr ⟨_, rfl, str "OK", by decide, by decide, by decide, [], by decide⟩)⟩
  · rw [← isUrcToken_iff]; decide +kernel
  · intro hp
    rw [← isPrefixPresent_iff (by decide) (by decide)] at hp
    exact absurd hp (by decide +kernel)

theorem demo_success : Success (demoCfg 200) (str "OK") :=
  Or.inr ⟨_, rfl, str "OK", by decide, by decide, by decide, [], by decide⟩

theorem demo_port : PlainPort (demoCfg 200) := ⟨by decide, by decide, rfl, fun l => Nat.le_refl _⟩

theorem demo_short (h : List Req) (r : Req) : (wireDemo.during h r).flatten.length ≤ 60 ∧
    (wireDemo.after h r).flatten.length = 10 := by
  unfold wireDemo
  simp only
  refine ⟨?_, by decide +kernel⟩
  split
  · decide +kernel
  · split <;> decide +kernel

theorem demo_backlog : ∀ (rs done : List Req) (n : Nat), done ≠ [] → n ≤ 70 →
    backlog wireDemo wireDemoAnswer n done rs ≤ 70 := by
  intro rs
  induction rs with
  | nil => intro done n _ h; exact h
  | cons r rs ih =>
    intro done n hd _
    simp only [backlog]
    apply ih _ _ (by simp)
    have h1 : wireDemoAnswer done r ≠ .timeout := by
      unfold wireDemoAnswer
      rw [if_neg hd]
      split <;> simp
    have h2 := demo_short done r
    split
    · rename_i h; exact absurd h h1
    · omega

theorem demo_speaks : Speaks (demoCfg 200) wireDemo wireDemoAnswer where
  answers := by
    intro h r _ hv
    by_cases h0 : h = []
    · right
      subst h0
      refine ⟨?_, by simp [wireDemoAnswer]⟩
      have hd : wireDemo.during [] r = [str "RI", str "NG\r\n"] := by simp only [wireDemo, if_true]
      rw [hd]
      intro l hl
      have : l = str "RING" := by
        have e : linesOf [str "RI", str "NG\r\n"].flatten = [str "RING"] := by decide +kernel
        rw [e] at hl
        simpa using hl
      subst this
      exact ⟨by decide, Or.inl ⟨_, rfl, by decide⟩⟩
    left
    by_cases hr : r = clockQuery
    · subst hr
      have hd : wireDemo.during h clockQuery =
        [str "\r\n+CC", str "LK: \"24/01/02,03:04:05-06\"\r\nRING\r\n\r\nO", str "K\r\n"] := by
        simp only [wireDemo, if_neg h0, if_true]
      refine ⟨[(true, str "+CCLK: \"24/01/02,03:04:05-06\""), (false, str "RING")], str "OK", [], ?_, ?_, ?_, by decide,
        demo_ok _ _, fun _ => ?_, fun h => absurd demo_success h⟩
      · rw [hd]; decide +kernel
      · intro x hx
        simp only [List.mem_cons, List.not_mem_nil, or_false] at hx
        rcases hx with rfl | rfl
        · refine ⟨by decide +kernel, by decide +kernel, fun _ => ⟨⟨?_, fun _ => ⟨by decide, _, rfl, ?_⟩⟩, ?_, ?_⟩, nofun⟩
          · rw [← isUrcToken_iff]; decide +kernel
          · exact ⟨str ": \"24/01/02,03:04:05-06\"", by decide +kernel⟩
          · unfold Success
            rw [← isToken_iff (by decide +kernel) (by decide +kernel), ← isToken_iff (by decide +kernel) (by decide +kernel)]
            decide +kernel
          · rw [← isToken_iff (by decide +kernel) (by decide +kernel)]
            decide +kernel
        · exact ⟨by decide, by decide, nofun, fun _ => Or.inl ⟨_, rfl, by decide⟩⟩
      · show (1 : Nat) ≤ 1; omega
      · simp only [wireDemoAnswer, if_neg h0, if_true]; rfl
    · have hd : wireDemo.during h r = [str "RING\r", str "\nOK\r\n"] := by
        simp only [wireDemo, if_neg h0, if_neg hr]
      refine ⟨[(false, str "RING")], str "OK", [], ?_, ?_, ?_, by decide, demo_ok _ _, fun _ => ?_,
        fun h => absurd demo_success h⟩
      · rw [hd]; decide +kernel
      · intro x hx
        simp only [List.mem_cons, List.not_mem_nil, or_false] at hx
        subst hx
        exact ⟨by decide, by decide, nofun, fun _ => Or.inl ⟨_, rfl, by decide⟩⟩
      · cases ht : r.type <;> simp [LineCount, mine]
      · simp only [wireDemoAnswer, if_neg h0, if_neg hr]; rfl
  ends := by
    intro h r
    refine ⟨?_, ?_⟩
    · unfold wireDemo
      simp only
      split
      · intro b hb; revert b; decide +kernel
      · split
        · intro b hb; revert b; decide +kernel
        · intro b hb; revert b; decide +kernel
    · intro b hb; revert b; unfold wireDemo; simp only; decide +kernel
  fits := by
    intro h r _
    have k4 : (demoCfg 200).size = 200 := rfl
    have k1 := (demo_short h r).1
    have k2 : backlog wireDemo wireDemoAnswer 0 [] h ≤ 70 := by
      cases h with
      | nil => simp [backlog]
      | cons x t =>
        have := demo_short [] x
        simp only [backlog]
        apply demo_backlog _ _ _ (by simp)
        split <;> omega
    omega

/-- The library connected to it. -/
noncomputable def wireWorld : World :=
  ⟨some (true, false, false), Reg.initAtData, false, [], [clockQuery, lockQuery],
    fun h r => (Wire.reply (demoCfg 200) wireDemo h r).getD .timeout⟩

/-- The hypotheses of the theorems above are met: the third request of this library is the clock query. -/
example : OnWire wireWorld (demoCfg 200) wireDemo ∧
    wireDemoAnswer wireWorld.sent clockQuery = .lines [str "+CCLK" ++ 58 :: str " \"24/01/02,03:04:05-06\""] :=
  ⟨⟨fun _ _ => rfl, by
    intro x hx
    simp only [wireWorld, List.mem_cons, List.not_mem_nil, or_false] at hx
    rcases hx with rfl | rfl
    · exact valid_clock
    · exact valid_lock⟩, by decide +kernel⟩

/-! ## C71: answers are made of what arrived while the request was pending -/

/-- C71: every line of an answer arrived while that request was pending, as long as no earlier request timed out after a
part of its answer had arrived (`Speaks`: requests are answered or get only unsolicited codes). -/
theorem C71_fresh_partial (cfg : Cfg) (m : Wire.Modem) (ans : List Req → Req → Reply) (hp : PlainPort cfg)
    (hm : Speaks cfg m ans) (sent : List Req) (hs : ∀ x ∈ sent, ValidReq x) (r : Req) (hr : ValidReq r) (ls : List Str)
    (h : Wire.reply cfg m sent r = some (.lines ls)) : ∀ l ∈ ls, l ∈ linesOf (m.during sent r).flatten := by
  rw [C70_bytes_to_reply cfg m ans hp hm sent hs r hr, Option.some.injEq] at h
  rcases hm.answers sent r hs hr with hA | ⟨-, ht⟩
  · obtain ⟨body, final, tail, hl, -, -, -, -, h1, h2⟩ := hA
    by_cases hS : Success cfg final
    · have := (h1 hS).symm.trans h
      cases this
      intro l hmem
      rw [hl]
      unfold mine at hmem
      rw [List.mem_map] at hmem
      obtain ⟨x, hx, rfl⟩ := hmem
      have hx := (List.mem_filter.mp hx).1
      exact List.mem_append_left _ (List.mem_map.mpr ⟨x, hx, rfl⟩)
    · rw [h2 hS] at h; cases h
  · rw [ht] at h; cases h

/-- A modem whose first answer comes to a halt after its first line; the second request gets these bytes. -/
def haltingModem (first second : Str) : Wire.Modem :=
  { during := fun h _ => if h = [] then [first] else [second], after := fun _ _ => [] }

/-- C71 is false of the code: the lines collected for a request that timed out are kept
(`pAtCmdResp` is freed only when a command completes, cellular_pktio.c:760, after an undefined line, 808, or when the task
ends, 1227).  Then
(1) a request that is answered with a mere `OK` gets the line of the earlier, different request as its answer; (2) a
request for several lines gets the earlier line in front of its own; (3) a request that is answered correctly, with one
line and `OK`, times out. -/
theorem C71_witness_stale_line :
    Wire.reply (demoCfg 200) (haltingModem (str "+CCLK: 1\r\n") (str "OK\r\n")) [clockQuery] lockQuery =
      some (.lines [str "+CCLK: 1"]) ∧
    Wire.reply (demoCfg 200) (haltingModem (str "+CEDRXS: 4\r\n") (str "+CEDRXS: 5\r\nOK\r\n")) [edrxQuery] edrxQuery =
      some (.lines [str "+CEDRXS: 4", str "+CEDRXS: 5"]) ∧
    Wire.reply (demoCfg 200) (haltingModem (str "+CCLK: 1\r\n") (str "+CPIN: READY\r\nOK\r\n")) [clockQuery] lockQuery =
      some .timeout := by
  refine ⟨?_, ?_, ?_⟩ <;> decide +kernel

end Cellular.Props
