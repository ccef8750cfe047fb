import Verif.Spec.PhpCall
import Verif.Props.Php
/-
C108: what a call of a PHP object reports.
-/
set_option autoImplicit false
namespace Nts
open Nts.Fcgi Nts.Php Nts.Spec.FastCgi Nts.Spec.PhpCall

theorem endpointOk_iff (f : Fpm) (e : Str) : endpointOk f e = true ↔ Endpoint (fun h => f.resolves h = true) (trim e) := by
  unfold endpointOk Endpoint
  dsimp only
  generalize trim e = x
  by_cases hx : x = []
  · subst hx
    simp [show ¬ c!"unix:" <+: ([] : Str) by decide]
  · rw [if_neg (by simpa using hx)]
    cases hu : stripPrefix? c!"unix:" x with
    | some path =>
      have h1 := stripPrefix?_eq_some.1 hu
      simp only [Bool.not_eq_true', List.isEmpty_eq_false_iff]
      constructor
      · intro h
        exact .inl ⟨path, h1, h⟩
      · rintro (⟨p, hp, hne⟩ | ⟨hn, _⟩)
        · rw [h1] at hp
          rw [List.append_cancel_left hp]
          exact hne
        · exact absurd ⟨path, h1.symm⟩ hn
    | none =>
      have h1 := stripPrefix?_eq_none.1 hu
      simp only [Bool.and_eq_true, contains_iff (p := c!":") (by decide)]
      have hmem : ∀ t : Str, c!":" <:+: t ↔ ':' ∈ t := by
        intro t
        constructor
        · rintro ⟨a, b, rfl⟩
          simp
        · intro h
          obtain ⟨a, b, rfl⟩ := List.append_of_mem h
          exact ⟨a, b, by simp⟩
      rw [hmem]
      constructor
      · rintro ⟨h2, h3⟩
        refine .inr ⟨h1, _, ?_, h2, h3⟩
        cases ht : stripPrefix? c!"tcp://" x with
        | some host => exact .inl (stripPrefix?_eq_some.1 ht)
        | none => exact .inr ⟨stripPrefix?_eq_none.1 ht, rfl⟩
      · rintro (⟨p, hp, _⟩ | ⟨_, host, hh, h2, h3⟩)
        · exact absurd ⟨p, hp.symm⟩ h1
        · have : (stripPrefix? c!"tcp://" x).getD x = host := by
            rcases hh with hh | ⟨hh, rfl⟩
            · rw [hh, stripPrefix?_append]; rfl
            · rw [stripPrefix?_eq_none.2 hh]; rfl
          rw [this]
          exact ⟨h2, h3⟩

theorem told_iff (v : Value) (msg : Str) : (v.get? c!"__neutralts_obj_error").bind Value.asStr? = some msg ↔
    ∃ o, v = .obj o ∧ Obj.get? c!"__neutralts_obj_error" o = some (.str msg) := by
  constructor
  · intro h
    cases v with
    | obj o =>
      refine ⟨o, rfl, ?_⟩
      simp only [Value.get?] at h
      cases hg : Obj.get? c!"__neutralts_obj_error" o with
      | none => rw [hg] at h; cases h
      | some x =>
        rw [hg] at h
        cases x <;> simp [Value.asStr?] at h
        subst h
        rfl
    | _ => simp [Value.get?] at h
  · rintro ⟨o, rfl, h⟩
    simp [Value.get?, h, Value.asStr?]

/-- **C108 (the call).** A call reports the first stage that fails, with its message, and otherwise the value; every call reports
something. -/
theorem C108_reports (env : Env) (f : Fpm) (c : ObjCall) : ∃ r, execPhp env f c = some r ∧ Reports env f c r := by
  have hend := endpointOk_iff f c.fpm
  unfold execPhp
  dsimp only
  cases hp : f.bridgePath c.file with
  | error e => exact ⟨_, rfl, .place e hp⟩
  | ok b =>
    simp only [bind, Except.bind]
    by_cases hb : f.exists_ b = true ∨ f.writeBridge b = none
    · have hhas : HasBridge f c.file b := ⟨hp, hb⟩
      have hcase : f.exists_ b = true ∨ (¬ f.exists_ b = true ∧ f.writeBridge b = none) := by
        by_cases h : f.exists_ b = true
        · exact .inl h
        · exact .inr ⟨h, hb.resolve_left h⟩
      rcases hcase with h | ⟨h, h'⟩
      · rw [if_pos h]
        dsimp only
        by_cases he : endpointOk f c.fpm = true
        · rw [if_pos he]
          have he' := hend.1 he
          dsimp only
          cases hc : f.connect (trim c.fpm) with
          | some e => exact ⟨_, rfl, .connect b e hhas he' hc⟩
          | none =>
            dsimp only
            have hcon : Connected f c b := ⟨hhas, he', hc⟩
            cases hs : sendRequest f.writeFail f.flushFail (utf8 (env.jsonShow (payload c))) b with
            | error e => exact ⟨_, rfl, .request b e hcon hs⟩
            | ok w =>
              have hsent : Sent env f c w := ⟨b, hcon, hs⟩
              simp only [mapErr]
              obtain ⟨x, hx⟩ := readResponse_total (f.respond w.sent)
              rw [hx]
              simp only [Option.map_some]
              refine ⟨_, rfl, ?_⟩
              cases x with
              | error e => exact .response w e hsent hx
              | ok p =>
                obtain ⟨a, d⟩ := p
                dsimp only
                have hans : Answered env f c (f.lossy a) (f.lossy d) := ⟨w, a, d, hsent, hx, rfl, rfl⟩
                by_cases ht : trim (f.lossy d) = []
                · rw [ht]
                  simp only [List.isEmpty_nil, Bool.not_true, Bool.false_eq_true, if_false]
                  cases hj : env.jsonParse (trim (httpBody (f.lossy a))) with
                  | none => exact .noJson _ _ hans ht hj
                  | some v =>
                    dsimp only
                    cases hm : (v.get? c!"__neutralts_obj_error").bind Value.asStr? with
                    | some msg =>
                      obtain ⟨o, rfl, ho⟩ := (told_iff v msg).1 hm
                      exact .told _ _ msg o hans ht hj ho
                    | none =>
                      refine .value _ _ v hans ht hj ?_
                      intro o msg hv ho
                      rw [(told_iff v msg).2 ⟨o, hv, ho⟩] at hm
                      cases hm
                · rw [if_pos (by simpa using ht)]
                  exact .stderr _ _ hans ht
        · rw [if_neg he]
          exact ⟨_, rfl, .endpoint b hhas (fun h => he (hend.2 h))⟩
      · rw [if_neg h, h']
        dsimp only
        by_cases he : endpointOk f c.fpm = true
        · rw [if_pos he]
          have he' := hend.1 he
          dsimp only
          cases hc : f.connect (trim c.fpm) with
          | some e => exact ⟨_, rfl, .connect b e hhas he' hc⟩
          | none =>
            dsimp only
            have hcon : Connected f c b := ⟨hhas, he', hc⟩
            cases hs : sendRequest f.writeFail f.flushFail (utf8 (env.jsonShow (payload c))) b with
            | error e => exact ⟨_, rfl, .request b e hcon hs⟩
            | ok w =>
              have hsent : Sent env f c w := ⟨b, hcon, hs⟩
              simp only [mapErr]
              obtain ⟨x, hx⟩ := readResponse_total (f.respond w.sent)
              rw [hx]
              simp only [Option.map_some]
              refine ⟨_, rfl, ?_⟩
              cases x with
              | error e => exact .response w e hsent hx
              | ok p =>
                obtain ⟨a, d⟩ := p
                dsimp only
                have hans : Answered env f c (f.lossy a) (f.lossy d) := ⟨w, a, d, hsent, hx, rfl, rfl⟩
                by_cases ht : trim (f.lossy d) = []
                · rw [ht]
                  simp only [List.isEmpty_nil, Bool.not_true, Bool.false_eq_true, if_false]
                  cases hj : env.jsonParse (trim (httpBody (f.lossy a))) with
                  | none => exact .noJson _ _ hans ht hj
                  | some v =>
                    dsimp only
                    cases hm : (v.get? c!"__neutralts_obj_error").bind Value.asStr? with
                    | some msg =>
                      obtain ⟨o, rfl, ho⟩ := (told_iff v msg).1 hm
                      exact .told _ _ msg o hans ht hj ho
                    | none =>
                      refine .value _ _ v hans ht hj ?_
                      intro o msg hv ho
                      rw [(told_iff v msg).2 ⟨o, hv, ho⟩] at hm
                      cases hm
                · rw [if_pos (by simpa using ht)]
                  exact .stderr _ _ hans ht
        · rw [if_neg he]
          exact ⟨_, rfl, .endpoint b hhas (fun h => he (hend.2 h))⟩
    · have h1 : f.exists_ b = false := by
        cases h : f.exists_ b
        · rfl
        · exact absurd (.inl h) hb
      cases hw : f.writeBridge b with
      | none => exact absurd (.inr hw) hb
      | some e =>
        rw [h1]
        exact ⟨_, rfl, .bridge b e hp h1 hw⟩

/-- **C108 (only one report).** What a call reports is determined by the stages: nothing else is reported. -/
theorem C108_only (env : Env) (f : Fpm) (c : ObjCall) (r : Except Str Value) (h : Reports env f c r) : execPhp env f c = some r := by
  have ans : ∀ {o e : Str} {P : Prop}, Answered env f c o e → (∀ b w a d, HasBridge f c.file b →
      endpointOk f c.fpm = true → f.connect (trim c.fpm) = none →
      sendRequest f.writeFail f.flushFail (utf8 (env.jsonShow (payload c))) b = .ok w →
      readResponse (f.respond w.sent) = some (.ok (a, d)) → o = f.lossy a → e = f.lossy d → P) → P := by
    rintro o e P ⟨w, a, d, ⟨b, ⟨h1, h2, h3⟩, h4⟩, h5, h6, h7⟩ k
    exact k b w a d h1 ((endpointOk_iff f c.fpm).2 h2) h3 h4 h5 h6 h7
  have hend : ¬ Endpoint (fun h => f.resolves h = true) (trim c.fpm) → ¬ endpointOk f c.fpm = true := fun h h' => h ((endpointOk_iff f c.fpm).1 h')
  have two : ∀ {b}, HasBridge f c.file b → f.exists_ b = true ∨ (f.exists_ b = false ∧ f.writeBridge b = none) := by
    rintro b ⟨_, h⟩
    cases hx : f.exists_ b
    · exact .inr ⟨rfl, h.resolve_left (by rw [hx]; simp)⟩
    · exact .inl rfl
  unfold execPhp
  simp only [bind, Except.bind]
  cases h with
  | place e h => simp only [h]
  | bridge b e h1 h2 h3 => simp only [h1, h2, h3, Bool.false_eq_true, if_false]
  | endpoint b h1 h2 =>
    rcases two h1 with hx | ⟨hx, hx'⟩
    · simp only [h1.1, hx, if_true, if_neg (hend h2)]
    · simp only [h1.1, hx, hx', Bool.false_eq_true, if_false, if_neg (hend h2)]
  | connect b e h1 h2 h3 =>
    have h2 := (endpointOk_iff f c.fpm).2 h2
    rcases two h1 with hx | ⟨hx, hx'⟩
    · simp only [h1.1, hx, if_true, h2, h3]
    · simp only [h1.1, hx, hx', Bool.false_eq_true, if_false, if_true, h2, h3]
  | request b e h1 h2 =>
    obtain ⟨h1, g2, g3⟩ := h1
    have g2 := (endpointOk_iff f c.fpm).2 g2
    rcases two h1 with hx | ⟨hx, hx'⟩
    · simp only [h1.1, hx, if_true, g2, g3, h2, mapErr]
    · simp only [h1.1, hx, hx', Bool.false_eq_true, if_false, if_true, g2, g3, h2, mapErr]
  | response w e h1 h2 =>
    obtain ⟨b, ⟨h1, g2, g3⟩, g4⟩ := h1
    have g2 := (endpointOk_iff f c.fpm).2 g2
    rcases two h1 with hx | ⟨hx, hx'⟩
    · simp only [h1.1, hx, if_true, g2, g3, g4, mapErr, h2, Option.map_some]
    · simp only [h1.1, hx, hx', Bool.false_eq_true, if_false, if_true, g2, g3, g4, mapErr, h2, Option.map_some]
  | stderr out err h1 h2 =>
    refine ans h1 (fun b w a d g1 g2 g3 g4 g5 g6 g7 => ?_)
    subst g6 g7
    have h2 : (!(trim (f.lossy d)).isEmpty) = true := by simpa using h2
    rcases two g1 with hx | ⟨hx, hx'⟩
    · simp only [g1.1, hx, if_true, g2, g3, g4, mapErr, g5, Option.map_some, h2]
    · simp only [g1.1, hx, hx', Bool.false_eq_true, if_false, if_true, g2, g3, g4, mapErr, g5, Option.map_some, h2]
  | noJson out err h1 h2 h3 =>
    refine ans h1 (fun b w a d g1 g2 g3 g4 g5 g6 g7 => ?_)
    subst g6 g7
    rcases two g1 with hx | ⟨hx, hx'⟩
    · simp only [g1.1, hx, if_true, g2, g3, g4, mapErr, g5, Option.map_some, h2, List.isEmpty_nil, Bool.not_true, Bool.false_eq_true, if_false, h3]
    · simp only [g1.1, hx, hx', Bool.false_eq_true, if_false, if_true, g2, g3, g4, mapErr, g5, Option.map_some, h2, List.isEmpty_nil, Bool.not_true, h3]
  | told out err msg o h1 h2 h3 h4 =>
    refine ans h1 (fun b w a d g1 g2 g3 g4 g5 g6 g7 => ?_)
    subst g6 g7
    have h4 := (told_iff _ msg).2 ⟨o, rfl, h4⟩
    rcases two g1 with hx | ⟨hx, hx'⟩
    · simp only [g1.1, hx, if_true, g2, g3, g4, mapErr, g5, Option.map_some, h2, List.isEmpty_nil, Bool.not_true, Bool.false_eq_true, if_false, h3, h4]
    · simp only [g1.1, hx, hx', Bool.false_eq_true, if_false, if_true, g2, g3, g4, mapErr, g5, Option.map_some, h2, List.isEmpty_nil, Bool.not_true, h3, h4]
  | value out err v h1 h2 h3 h4 =>
    refine ans h1 (fun b w a d g1 g2 g3 g4 g5 g6 g7 => ?_)
    subst g6 g7
    have h4 : (v.get? c!"__neutralts_obj_error").bind Value.asStr? = none := by
      cases hm : (v.get? c!"__neutralts_obj_error").bind Value.asStr? with
      | none => rfl
      | some msg =>
        obtain ⟨o, h5, h6⟩ := (told_iff v msg).1 hm
        exact absurd h6 (h4 o msg h5)
    rcases two g1 with hx | ⟨hx, hx'⟩
    · simp only [g1.1, hx, if_true, g2, g3, g4, mapErr, g5, Option.map_some, h2, List.isEmpty_nil, Bool.not_true, Bool.false_eq_true, if_false, h3, h4]
    · simp only [g1.1, hx, hx', Bool.false_eq_true, if_false, if_true, g2, g3, g4, mapErr, g5, Option.map_some, h2, List.isEmpty_nil, Bool.not_true, h3, h4]

/-! ### What the answer is read as -/

/-- **C108 (not FastCGI).** When the peer answers something that is not FastCGI - after any records, eight bytes or more that do not
begin with version 1 - the answer is refused, whatever follows; and when these bytes are the beginning of an HTTP answer, that is
said. -/
theorem C108_version (rs : List Record) (b rest : Bytes) (v x1 x2 x3 x4 x5 x6 x7 : UInt8) (e : Ending) (ho : Open rs) (hb : Frames rs b)
    (hv : v ≠ 1) :
    readResponse ⟨b ++ ([v, x1, x2, x3, x4, x5, x6, x7] ++ rest), e⟩ = some (.error
      (if [v, x1, x2, x3, x4] = utf8 c!"HTTP/" then c!"invalid FastCGI response: endpoint looks like HTTP, not PHP-FPM"
       else c!"invalid FastCGI response: unsupported version " ++ showNat v.toNat)) := by
  have hl := stream_length hb
  unfold readResponse
  refine readLoop_mono (rs.length + 1) _ _ _ _ _ ?_ (by simp only [List.length_append]; omega)
  rw [readLoop_stream rs ho 1 b _ [] [] hb]
  unfold readLoop readRound
  have h8 : readExact 8 ([v, x1, x2, x3, x4, x5, x6, x7] ++ rest) = some ([v, x1, x2, x3, x4, x5, x6, x7], rest) := by
    unfold readExact
    rw [if_pos (by simp)]
    rfl
  rw [h8]
  simp only [hv, ne_eq, not_false_eq_true, if_true, badVersion, List.take_succ_cons, List.take_zero]
  by_cases h : [v, x1, x2, x3, x4] = utf8 c!"HTTP/"
  · simp only [h, if_true]
  · simp only [h, if_false]

/-- **C108 (an HTTP server).** When the endpoint is an HTTP server, the call says so. -/
theorem C108_http (env : Env) (f : Fpm) (c : ObjCall) (w : Wire) (rest : Bytes) (e : Ending) (hs : Sent env f c w)
    (hr : f.respond w.sent = ⟨utf8 c!"HTTP/1.1" ++ rest, e⟩) :
    execPhp env f c = some (.error c!"php-fpm response failed: invalid FastCGI response: endpoint looks like HTTP, not PHP-FPM") := by
  refine C108_only env f c _ (.response w c!"invalid FastCGI response: endpoint looks like HTTP, not PHP-FPM" hs ?_)
  rw [hr]
  have h := C108_version [] [] rest 72 84 84 80 47 49 46 49 e (by simp [Spec.FastCgi.Open]) rfl (by decide)
  have h1 : utf8 c!"HTTP/1.1" = [72, 84, 84, 80, 47, 49, 46, 49] := by decide +kernel
  rw [h1]
  rw [List.nil_append] at h
  rw [h, if_pos (by decide +kernel)]

/-- **C108 (warnings).** A script that writes anything but white space to its standard error fails, with that text, even when it gives a
value. -/
theorem C108_stderr (env : Env) (f : Fpm) (c : ObjCall) (w : Wire) (rs more : List Record) (content b tail : Bytes) (e : Ending)
    (hs : Sent env f c w) (ho : Open rs) (hb : Frames (rs ++ ⟨3, 1, content⟩ :: more) b) (hr : f.respond w.sent = ⟨b ++ tail, e⟩)
    (ht : trim (f.lossy (carried 7 1 rs)) ≠ []) :
    execPhp env f c = some (.error (c!"php-fpm stderr: " ++ trim (f.lossy (carried 7 1 rs)))) :=
  C108_only env f c _ (.stderr _ _ ⟨w, _, _, hs, by rw [hr]; exact C50_response rs more content b tail e ho hb, rfl, rfl⟩ ht)

/-- **C108 (large requests).** A payload of more than 65535 bytes is never sent whole; the call says so or names an earlier failure of the
connection. -/
theorem C108_large (env : Env) (f : Fpm) (c : ObjCall) (b : Str) (h : Connected f c b)
    (hl : 65535 < (utf8 (env.jsonShow (payload c))).length) :
    ∃ e, execPhp env f c = some (.error (c!"php-fpm request failed: " ++ e)) := by
  obtain ⟨e, he⟩ := C51_refuted f.writeFail f.flushFail (utf8 (env.jsonShow (payload c))) b hl
  exact ⟨e, C108_only env f c _ (.request b e h he)⟩

/-- **C108 (the bridge).** A request whose body is no object and no list is refused by the bridge, and a list names no script. -/
theorem C108_bridge (P : Php.Php) (raw : Bytes) :
    ((∀ o, P.decode raw ≠ some (.obj o)) → (∀ a, P.decode raw ≠ some (.arr a)) → bridge P raw = bridgeError P c!"invalid payload") ∧
    (∀ a, P.decode raw = some (.arr a) → bridge P raw = bridgeError P c!"obj script not found") := by
  unfold bridge
  constructor
  · intro h1 h2
    cases h : P.decode raw with
    | none => rfl
    | some v =>
      cases v with
      | obj o => exact absurd h (h1 o)
      | arr a => exact absurd h (h2 a)
      | _ => rfl
  · intro a h
    rw [h]
    rfl

/-! ### The premises are met -/

/-- The request of the sample call can be sent. -/
theorem exSent (ans : Bytes) : ∃ w, Sent exEnv (exFpm ans) exCall w := by
  obtain ⟨w, hw⟩ := C51_partial (utf8 (exEnv.jsonShow (payload exCall))) c!"/b.php" (by decide +kernel) (by decide +kernel)
  exact ⟨w, c!"/b.php", ⟨⟨rfl, .inl rfl⟩, .inl ⟨c!"/s", rfl, by decide⟩, rfl⟩, hw⟩

example : execPhp exEnv (exFpm (utf8 c!"HTTP/1.1 400 Bad Request")) exCall =
    some (.error c!"php-fpm response failed: invalid FastCGI response: endpoint looks like HTTP, not PHP-FPM") := by
  obtain ⟨w, hw⟩ := exSent (utf8 c!"HTTP/1.1 400 Bad Request")
  exact C108_http exEnv _ exCall w (utf8 c!" 400 Bad Request") .eof hw (by
    show (⟨utf8 c!"HTTP/1.1 400 Bad Request", .eof⟩ : Incoming) = _
    congr 1)

/-- Endpoints. -/
example : Endpoint (fun _ => True) c!"unix:/run/php.sock" ∧ Endpoint (fun _ => True) c!"tcp://127.0.0.1:9000" ∧
    Endpoint (fun _ => True) c!"127.0.0.1:9000" ∧ ¬ Endpoint (fun _ => True) c!"unix:" ∧ ¬ Endpoint (fun _ => True) c!"localhost" := by
  refine ⟨.inl ⟨_, rfl, by decide⟩, .inr ⟨by decide, _, .inl rfl, by decide, trivial⟩, .inr ⟨by decide, _, .inr ⟨by decide, rfl⟩, by decide, trivial⟩, ?_, ?_⟩
  · rintro (⟨p, h, hp⟩ | ⟨h, _⟩)
    · rw [show c!"unix:" = c!"unix:" ++ [] from rfl] at h
      exact hp (List.append_cancel_left h).symm
    · exact h ⟨[], rfl⟩
  · rintro (⟨p, h, _⟩ | ⟨_, host, h, hc, _⟩)
    · simp at h
    · rcases h with h | ⟨_, h⟩
      · simp at h
      · rw [← h] at hc
        simp at hc

end Nts
