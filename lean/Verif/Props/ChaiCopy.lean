import Verif.Props.Chai
import Verif.ChaiCopyLemmas
/-!
# C72: copies between arrays in any memory spaces
-/

namespace LvArray.Props

open LvArray.Chai LvArray.Spec

variable {T : Type}

/-- The beginning of a copy. -/
theorem startCopy_ok {w : Arrays T} {a : Copied T} {value : Nat → Nat → Option T} {ids : Nat → Nat} (h : CopyRep w a value ids)
    {d v dstFirst s u srcFirst len : Nat} {l : List (Everywhere T)} (hl : bothMoved a.arrays d v s u = some l) {x y : Everywhere T}
    (hx : l[d]? = some x) (hy : l[s]? = some y) (hv : (x.view v).map Prod.snd = some false) (hcd : dstFirst + len ≤ x.cap)
    (hcs : srcFirst + len ≤ y.cap) :
    ∃ ws, startCopy w.arrays d v dstFirst s u srcFirst len =
        .ok (ws, ⟨d, ids d, x.current, dstFirst⟩, ⟨s, ids s, y.current, srcFirst⟩) ∧
      CopyRep { w with arrays := ws } { a with arrays := l } value ids ∧ x.touched = true := by
  simp only [bothMoved] at hl
  split at hl
  · cases hl
  · next x0 hx0 =>
    split at hl
    · cases hl
    · next x1 o1 hs1 =>
      split at hl
      · cases hl
      · next y0 hy0 =>
        split at hl
        · cases hl
        · next y1 o2 hs2 =>
          cases hl
          obtain ⟨sd, sd', hsd, hmd, h1⟩ := moved_ok h hx0 hs1
          obtain ⟨ss, ss', hss, hms, h2⟩ := moved_ok h1 hy0 hs2
          obtain ⟨p, c, hv0, hx1⟩ := move_current hs1
          obtain ⟨p', c', hu0, hy1⟩ := move_current hs2
          have hdlt : d < a.arrays.length := (List.getElem?_eq_some_iff.1 hx0).1
          have hslt : s < (a.arrays.set d x1).length := (List.getElem?_eq_some_iff.1 hy0).1
          have hx1v : x1.view v = some (x1.current, c) := by
            rw [hx1]
            exact view_current_self hv0 _ c
          -- where the two views are in the end
          have hyv : y.view u = some (y.current, c') := by
            rw [List.getElem?_set_self hslt] at hy
            cases hy
            rw [hy1]
            exact view_current_self hu0 _ c'
          have hxv : x.view v = some (x.current, c) ∧ (x1.touched = true → x.touched = true) := by
            by_cases e : d = s
            · subst e
              rw [List.getElem?_set_self hslt] at hx
              cases hx
              rw [List.getElem?_set_self hdlt] at hy0
              cases hy0
              rw [hy1]
              exact ⟨view_current_other hx1v hu0 _, fun ht => by simp [ht]⟩
            · rw [List.getElem?_set_ne (Ne.symm e), List.getElem?_set_self hdlt] at hx
              cases hx
              exact ⟨hx1v, id⟩
          have hc : c = false := by
            rw [hxv.1] at hv
            simpa using hv
          obtain ⟨td, rd, htd, hrd⟩ := h2.at hx
          obtain ⟨ts, rs, hts, hrs⟩ := h2.at hy
          have hpd : placeOf ((w.arrays.set d sd').set s ss') d v dstFirst len = .ok ⟨d, ids d, x.current, dstFirst⟩ := by
            have := (hrd.view v x.current c hxv.1).1
            have htd' : ((w.arrays.set d sd').set s ss')[d]? = some td := htd
            simp only [placeOf, arrayAt_ok htd', bind_ok, viewAt_ok this]
            rw [if_pos hcd]
          have hps : placeOf ((w.arrays.set d sd').set s ss') s u srcFirst len = .ok ⟨s, ids s, y.current, srcFirst⟩ := by
            have := (hrs.view u y.current c' hyv).1
            have hts' : ((w.arrays.set d sd').set s ss')[s]? = some ts := hts
            simp only [placeOf, arrayAt_ok hts', bind_ok, viewAt_ok this]
            rw [if_pos hcs]
          refine ⟨(w.arrays.set d sd').set s ss', ?_, h2, hxv.2 ?_⟩
          · have hss' : (w.arrays.set d sd')[s]? = some ss := hss
            simp only [startCopy, arrayAt_ok hsd, bind_ok, hmd, arrayAt_ok hss', hms, hpd, hps]
          · rw [hx1, hc]
            rfl

/-- One step that keeps the rules. -/
theorem copy_step {w : Arrays T} {a a' : Copied T} {value : Nat → Nat → Option T} {ids : Nat → Nat} (h : CopyRep w a value ids)
    {op : CopyOp T} {out : Option T} (hs : copiedStep a op = some (a', out)) :
    ∃ w' value' ids', copyStep w op = .ok (w', out) ∧ CopyRep w' a' value' ids' := by
  cases op with
  | on k op =>
    simp only [copiedStep] at hs
    split at hs
    · cases hs
    · next hb =>
      split at hs
      · cases hs
      · next x hx =>
        split at hs
        · cases hs
        · next x' o hst =>
          cases hs
          have hd : a.isDst k = false := by
            cases hk : a.isDst k with
            | false => rfl
            | true => simp [hk] at hb
          obtain ⟨st, r, hget, hr⟩ := h.at hx
          have hvk := h.quiet hx hd
          rw [hvk] at hr
          cases hk : a.isSrc k with
          | false =>
            obtain ⟨st', id', r', hstep, hr'⟩ := chai_step hr hst
            obtain ⟨value', ids', h'⟩ := h.replace_quiet hx hd hk hr'
            exact ⟨_, value', ids', by simp only [copyStep, arrayAt_ok hget, bind_ok, hstep], h'⟩
          | true =>
            have ho : onlyReads op = true := by
              simpa [hk, hd] using hb
            obtain ⟨st', hstep, hr', e1, e2, e3⟩ := step_onlyReads hr ho hst
            refine ⟨{ w with arrays := w.arrays.set k st' }, value, ids, by simp only [copyStep, arrayAt_ok hget, bind_ok, hstep],
              h.replace_same (r' := r) hx e1 e2 (fun ht => by rw [e3]; exact ht) ?_⟩
            · rw [hvk]
              have e1' : x'.value = x.value := e1
              rw [← e1']
              exact hr'
  | memcpy async d v dstFirst s u srcFirst len =>
    simp only [copiedStep] at hs
    split at hs
    · cases hs
    · next l hl =>
      split at hs
      · next x y hx hy =>
        split at hs
        · next hc =>
          obtain ⟨hv, hcd, hcs, hal⟩ := hc
          cases hs
          obtain ⟨ws, hstart, h1, ht⟩ := startCopy_ok h hl hx hy hv hcd hcs
          have h2 := started_ok (a := { a with arrays := l }) h1 hx hy ht hal
          cases async with
          | true =>
            exact ⟨⟨ws, w.copies ++ [⟨⟨d, ids d, x.current, dstFirst⟩, ⟨s, ids s, y.current, srcFirst⟩, List.range len⟩]⟩, value, ids,
              by simp only [copyStep, memcpyArrays, hstart, bind_ok, if_true], h2⟩
          | false =>
            obtain ⟨ws', value', he, h3⟩ := copyElements_ok (List.range len) h2 (e := w.copies.length)
              (dst := ⟨d, ids d, x.current, dstFirst⟩) (src := ⟨s, ids s, y.current, srcFirst⟩) (by simp)
            have hset : ∀ {α : Type} (l : List α) (p q : α), (l ++ [p]).set l.length q = l ++ [q] := fun l p q => by simp
            rw [hset] at h3
            have h4 := h3.waited (e := w.copies.length) (t := ⟨⟨d, ids d, x.current, dstFirst⟩, ⟨s, ids s, y.current, srcFirst⟩, []⟩)
              (by simp) rfl
            have he' : copyElements ⟨d, ids d, x.current, dstFirst⟩ ⟨s, ids s, y.current, srcFirst⟩ ws (List.range len) = .ok ws' := he
            refine ⟨⟨ws', w.copies ++ [⟨⟨d, ids d, x.current, dstFirst⟩, ⟨s, ids s, y.current, srcFirst⟩, []⟩]⟩, value', ids,
              by simp only [copyStep, memcpyArrays, hstart, bind_ok, he', Bool.false_eq_true, if_false], ?_⟩
            simp only at h4
            rw [h.events, hset] at h4
            exact h4
        · cases hs
      · cases hs
  | progress e j =>
    cases hs
    cases ht : w.copies[e]? with
    | none => exact ⟨w, value, ids, by simp only [copyStep, progress, ht, bind_ok], h⟩
    | some t =>
      by_cases hj : j ∈ t.todo
      · obtain ⟨ws, value', he, h'⟩ := copyElement_ok h ht hj (todo := t.todo.filter (fun i => i ≠ j))
          (fun i hi => (List.mem_filter.1 hi).1) (fun i hi hne => List.mem_filter.2 ⟨hi, by simpa using hne⟩)
        exact ⟨_, value', ids, by simp only [copyStep, progress, ht, hj, if_true, he, bind_ok], h'⟩
      · exact ⟨w, value, ids, by simp only [copyStep, progress, ht, hj, if_false, bind_ok], h⟩
  | wait e =>
    simp only [copiedStep] at hs
    split at hs
    · next he =>
      cases hs
      have hlt : e < w.copies.length := by rw [h.events]; exact he
      have ht := List.getElem?_eq_getElem hlt
      obtain ⟨ws, value', hc, h'⟩ := copyElements_ok w.copies[e].todo (ws := w.arrays) (copies := w.copies) h (e := e)
        (dst := w.copies[e].dst) (src := w.copies[e].src) ht
      exact ⟨_, value', ids, by simp only [copyStep, waitFor, ht, hc, bind_ok],
        h'.waited (e := e) (t := ⟨w.copies[e].dst, w.copies[e].src, []⟩) (by simp [hlt]) rfl⟩
    · cases hs

theorem copy_run (ops : List (CopyOp T)) : ∀ {w : Arrays T} {a a' : Copied T} {value : Nat → Nat → Option T} {ids : Nat → Nat},
    CopyRep w a value ids → ∀ {outs : List T}, copiedRun a ops = some (a', outs) →
    ∃ w' value' ids', copyRun w ops = .ok (w', outs) ∧ CopyRep w' a' value' ids' := by
  induction ops with
  | nil =>
    intro w a a' value ids h outs hs
    cases hs
    exact ⟨w, value, ids, rfl, h⟩
  | cons op ops ih =>
    intro w a a' value ids h outs hs
    simp only [copiedRun] at hs
    split at hs
    · cases hs
    · next a1 out h1 =>
      split at hs
      · cases hs
      · next a2 outs2 h2 =>
        cases hs
        obtain ⟨w1, v1, i1, e1, hr1⟩ := copy_step h h1
        obtain ⟨w2, v2, i2, e2, hr2⟩ := ih hr1 h2
        exact ⟨w2, v2, i2, by simp only [copyRun, e1, bind_ok, e2], hr2⟩

theorem freshArrays_ok : ∀ (ns : List Nat), (∀ n, n ∈ ns → 0 < n) → ∃ ws, freshArrays (T := T) ns = .ok ws ∧
    ws.length = ns.length ∧ ∀ (k : Nat) (st : State T) (x : Everywhere T), ws[k]? = some st → (ns.map (fresh T))[k]? = some x →
      ∃ r, Rep st x 1 r
  | [], _ => ⟨[], rfl, rfl, fun k st x h => by simp at h⟩
  | n :: ns, hpos => by
    obtain ⟨ws, e, hl, h⟩ := freshArrays_ok ns fun m hm => hpos m (List.mem_cons_of_mem _ hm)
    have h0 : ∃ st r, start n = .ok st ∧ Rep st (fresh T n) 1 r := by
      refine ⟨⟨[none, some ⟨put (fun _ => none) .host (some (fun _ => none)), put (fun _ => false) .host true, some .host⟩],
        [⟨some .host, n, some 1, false⟩]⟩, ⟨put (fun _ => none) .host (some (fun _ => none)), put (fun _ => false) .host true, some .host⟩,
        ?_, hpos n (by simp), rfl, ⟨rfl, rfl, rfl, fun s hs => put_ne (fun _ => false) true hs, fun e => by cases e⟩, rfl, fun v p c hv => ?_⟩
      · rfl
      · match v, hv with
        | 0, hv => cases hv; exact ⟨rfl, fun e => by cases e⟩
        | v + 1, hv => simp [Everywhere.view, fresh] at hv
    obtain ⟨st, r, e0, hr⟩ := h0
    refine ⟨st :: ws, by simp only [freshArrays, e0, bind_ok, e], by simp [hl], fun k st' x hst hx => ?_⟩
    cases k with
    | zero =>
      simp only [List.getElem?_cons_zero, List.map_cons] at hst hx
      cases hst
      cases hx
      exact ⟨r, hr⟩
    | succ k =>
      simp only [List.getElem?_cons_succ, List.map_cons] at hst hx
      exact h k st' x hst hx

/-- For arrays of any sizes, every history of operations on them, copies between them and waits that keeps the rules, and every way the
asynchronous copies can progress in between: no error occurs, and every read returns what it would if each copy had happened at once when
it was started. -/
theorem C72_copies (ns : List Nat) (hpos : ∀ n, n ∈ ns → 0 < n) (ops : List (CopyOp T)) (a' : Copied T) (outs : List T)
    (h : copiedRun ⟨ns.map (fresh T), []⟩ ops = some (a', outs)) :
    ∃ w', (freshArrays ns >>= fun ws => copyRun ⟨ws, []⟩ ops) = .ok (w', outs) := by
  obtain ⟨ws, e, hl, hr⟩ := freshArrays_ok (T := T) ns hpos
  have h0 : CopyRep ⟨ws, []⟩ ⟨ns.map (fresh T), []⟩ (fun _ _ => none) (fun _ => 1) := by
    refine ⟨by simpa using hl, fun k st x hst hx => ?_, rfl, fun e t ht => by simp at ht, fun k x i hx hne => ?_,
      fun e e' d s d' s' h1 => by simp at h1⟩
    · obtain ⟨r, hr'⟩ := hr k st x hst hx
      have hv : x.value = fun _ => none := by
        simp only [List.getElem?_map, Option.map_eq_some_iff] at hx
        obtain ⟨n, -, rfl⟩ := hx
        rfl
      refine ⟨r, ?_⟩
      rw [← hv]
      exact hr'
    · simp only [List.getElem?_map, Option.map_eq_some_iff] at hx
      obtain ⟨n, -, rfl⟩ := hx
      exact absurd rfl hne
  obtain ⟨w', -, -, e', -⟩ := copy_run ops h0 h
  exact ⟨w', by rw [e, bind_ok, e']⟩

/-- The asynchronous steps are not part of what a program does. -/
def calls (ops : List (CopyOp T)) : List (CopyOp T) := ops.filter fun op => match op with | .progress _ _ => false | _ => true

/-- What a history means does not depend on when the asynchronous copies progress. -/
theorem copiedRun_calls : ∀ (ops : List (CopyOp T)) (a : Copied T), copiedRun a (calls ops) = copiedRun a ops
  | [], a => rfl
  | op :: ops, a => by
    have ih := copiedRun_calls ops
    cases op with
    | progress e j =>
      rw [show calls (.progress e j :: ops) = calls ops from rfl, ih]
      simp only [copiedRun, copiedStep, Option.toList_none, List.nil_append]
      cases copiedRun a ops <;> rfl
    | on k op => simp only [show calls (.on k op :: ops) = .on k op :: calls ops from rfl, copiedRun, ih]
    | memcpy async d v f s u g n =>
      simp only [show calls (.memcpy async d v f s u g n :: ops) = .memcpy async d v f s u g n :: calls ops from rfl, copiedRun, ih]
    | wait e => simp only [show calls (.wait e :: ops) = .wait e :: calls ops from rfl, copiedRun, ih]

/-- Two executions of the same program that keeps the rules read the same values, however its asynchronous copies progress. -/
theorem C72_schedule (ns : List Nat) (hpos : ∀ n, n ∈ ns → 0 < n) (ops ops' : List (CopyOp T)) (hsame : calls ops' = calls ops)
    (a' : Copied T) (outs : List T) (h : copiedRun ⟨ns.map (fresh T), []⟩ ops = some (a', outs)) :
    ∃ w w', (freshArrays ns >>= fun ws => copyRun ⟨ws, []⟩ ops) = .ok (w, outs) ∧
      (freshArrays ns >>= fun ws => copyRun ⟨ws, []⟩ ops') = .ok (w', outs) := by
  obtain ⟨w, e⟩ := C72_copies ns hpos ops a' outs h
  rw [← copiedRun_calls, ← hsame, copiedRun_calls] at h
  obtain ⟨w', e'⟩ := C72_copies ns hpos ops' a' outs h
  exact ⟨w, w', e, e'⟩

/-- Two copies from the host into one array on the device run at the same time, while a third array is filled from their source; then the
values are read on both sides. -/
example : (copiedRun ⟨[2, 4, 2].map (fresh Nat), []⟩
    [.on 0 (.write 0 .host 0 5), .on 0 (.write 0 .host 1 6), .on 1 (.move 0 (some .device) true),
     .memcpy true 1 0 0 0 0 0 2, .progress 0 1, .memcpy true 1 0 2 0 0 0 2, .on 0 (.read 0 .host 1), .memcpy false 2 0 0 0 0 1 1,
     .progress 1 0, .wait 1, .on 2 (.read 0 .host 0), .wait 0, .on 0 (.write 0 .host 0 9), .on 1 (.read 0 .device 0),
     .on 1 (.move 0 (some .host) false), .on 1 (.read 0 .host 2), .on 1 (.read 0 .host 3)]).map Prod.snd = some [6, 6, 5, 5, 6] := rfl

/-- The rules are needed: before its event was waited for, the destination of a copy may have its old value. -/
theorem C72_no_wait :
    (freshArrays [1, 1] >>= fun ws => copyRun (T := Nat) ⟨ws, []⟩ [.on 0 (.write 0 .host 0 5), .on 1 (.write 0 .host 0 7),
      .memcpy true 1 0 0 0 0 0 1, .on 1 (.read 0 .host 0), .wait 0, .on 1 (.read 0 .host 0)]).map Prod.snd = .ok [7, 5] := rfl

/-- The rules are needed: a source that is modified before the event was waited for may or may not be copied with the modification. -/
theorem C72_source_modified :
    (freshArrays [1, 1] >>= fun ws => copyRun (T := Nat) ⟨ws, []⟩ [.on 0 (.write 0 .host 0 5), .memcpy true 1 0 0 0 0 0 1,
      .progress 0 0, .on 0 (.write 0 .host 0 9), .wait 0, .on 1 (.read 0 .host 0)]).map Prod.snd = .ok [5] ∧
    (freshArrays [1, 1] >>= fun ws => copyRun (T := Nat) ⟨ws, []⟩ [.on 0 (.write 0 .host 0 5), .memcpy true 1 0 0 0 0 0 1,
      .on 0 (.write 0 .host 0 9), .progress 0 0, .wait 0, .on 1 (.read 0 .host 0)]).map Prod.snd = .ok [9] := ⟨rfl, rfl⟩

/-- The rules are needed: a destination that is moved before the event was waited for loses what is copied later. -/
theorem C72_destination_moved :
    (freshArrays [1, 1] >>= fun ws => copyRun (T := Nat) ⟨ws, []⟩ [.on 0 (.write 0 .host 0 5), .on 1 (.write 0 .host 0 7),
      .memcpy true 1 0 0 0 0 0 1, .on 1 (.move 0 (some .device) true), .wait 0, .on 1 (.read 0 .device 0),
      .on 1 (.move 0 (some .host) true), .on 1 (.read 0 .host 0)]).map Prod.snd = .ok [7, 7] := rfl

/-- The rules are needed: through a read-only view of the destination the copy is not registered, and lost when the array moves.  (The
overload that takes arrays does not accept such a view; the one that takes slices does not register anything.) -/
theorem C72_not_registered :
    (freshArrays [1, 1] >>= fun ws => copyRun (T := Nat) ⟨ws, []⟩ [.on 0 (.write 0 .host 0 5), .on 1 (.write 0 .host 0 7),
      .on 1 (.toViewConst 0), .on 1 (.move 0 (some .device) true), .on 1 (.move 1 (some .host) false),
      .memcpy false 1 1 0 0 0 0 1, .on 1 (.read 1 .host 0), .on 1 (.move 0 (some .device) true),
      .on 1 (.read 0 .device 0)]).map Prod.snd = .ok [5, 7] := rfl

end LvArray.Props
