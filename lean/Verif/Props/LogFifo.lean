import Verif.Spec.LogFifo
import Mathlib.Data.List.Count
/-!
# C96: log streams, C97: control pipe
-/
namespace IFEM.LogFifo
open IFEM.Spec

variable {α : Type}

theorem fold_put (d : α) (l : List Nat) (w : World α) (s : Nat) :
    (l.foldl (put d) w) s = { w s with text := (w s).text ++ List.replicate (l.count s) d } := by
  induction l generalizing w with
  | nil => simp
  | cons t l ih =>
    rw [List.foldl_cons, ih]
    by_cases h : s = t
    · subst h
      simp [put, upd, List.append_assoc, List.replicate_succ]
    · have h' : ¬ t = s := fun e => h e.symm
      simp [put, upd, h, h', List.count_cons]

/-- How often a stream gets what is written: once as main stream of the printing process, and once for each subscription. -/
def receives (l : Log) (s : Nat) : Nat := (if l.out = some s ∧ l.ppid = l.pid then 1 else 0) + l.extra.count s

/-- Writing appends the data to each stream as often as it is connected, and changes nothing else. -/
theorem C96_write (l : Log) (d : α) (w : World α) (s : Nat) :
    (write l d w) s = { w s with text := (w s).text ++ List.replicate (receives l s) d } := by
  unfold write receives
  simp only
  rw [fold_put]
  cases e : l.out with
  | none => simp
  | some t =>
    by_cases hp : l.ppid = l.pid
    · by_cases h : s = t
      · subst h
        simp [hp, put, upd, List.append_assoc, Nat.add_comm 1, List.replicate_succ]
      · have h' : ¬ t = s := fun e => h e.symm
        simp [hp, put, upd, h, h']
    · simp [hp]

/-- The state of the log after any calls: the connections are those asked for. -/
theorem C96_connections (l : Log) (w : World α) (h : List (Call α)) (s : Nat) :
    let l' := (h.foldl step (l, w)).1
    l'.extra.count s = subs s (l.extra.count s) h ∧ l'.out = mainOf l.out h ∧ (decide (l'.ppid = l'.pid) = printsOf (decide (l.ppid = l.pid)) h) := by
  induction h generalizing l w with
  | nil => exact ⟨rfl, rfl, rfl⟩
  | cons c h ih =>
    rw [List.foldl_cons]
    cases c with
    | setNull => exact ih _ _
    | setStream t => exact ih _ _
    | write d => exact ih _ _
    | setPIDs a b =>
      exact ih { l with ppid := a, pid := b } w
    | add t c =>
      have := ih (l.add t c) w
      have e : (l.add t c).extra.count s = (if c then 0 else l.extra.count s) + (if t = s then 1 else 0) := by
        cases c <;> simp [Log.add, List.count_singleton]
      rw [e] at this
      exact this
    | remove t =>
      have := ih (l.remove t) w
      have e : (l.remove t).extra.count s = if t = s then l.extra.count s - 1 else l.extra.count s := by
        unfold Log.remove
        by_cases h : t = s
        · subst h; simp
        · rw [if_neg h]; exact List.count_erase_of_ne (fun e => h e.symm)
      rw [e] at this
      exact this

/-- What a stream gets during any calls: each piece of data as often as the stream is connected at this time, in the order of the calls. -/
theorem C96_history (l : Log) (w : World α) (h : List (Call α)) (s : Nat) (d : α) :
    ((h ++ [Call.write d]).foldl step (l, w)).2 s =
      let v := (h.foldl step (l, w)).2 s
      { v with text := v.text ++ List.replicate ((if mainOf l.out h = some s ∧ printsOf (decide (l.ppid = l.pid)) h = true then 1 else 0) + subs s (l.extra.count s) h) d } := by
  obtain ⟨h1, h2, h3⟩ := C96_connections l w h s
  rw [List.foldl_append, List.foldl_cons, List.foldl_nil]
  show (write (h.foldl step (l, w)).1 d (h.foldl step (l, w)).2) s = _
  rw [C96_write]
  simp only [receives, h1, ← h2, ← h3, decide_eq_true_eq]

/-- Calls other than writing leave all streams as they are. -/
theorem C96_silent (l : Log) (w : World α) (c : Call α) (hc : ∀ d, c ≠ .write d) : (step (l, w) c).2 = w := by
  cases c with
  | write d => exact absurd rfl (hc d)
  | _ => rfl

theorem fold_set (g : Stream α → Stream α) (hg : ∀ c, g (g c) = g c) (l : List Nat) (w : World α) (s : Nat) :
    (l.foldl (fun w s => upd w s g) w) s = if s ∈ l then g (w s) else w s := by
  induction l generalizing w with
  | nil => simp
  | cons t l ih =>
    rw [List.foldl_cons, ih]
    by_cases h : s = t
    · subst h; by_cases h2 : s ∈ l <;> simp [upd, h2, hg]
    · simp [upd, h]

/-- Setting the precision or the flags changes them for the main stream (on all processes) and all subscribed ones, and nothing else; the result is the
earlier value of the main stream, or the new one if there is none. -/
theorem C96_format (l : Log) (p : Int) (f : Nat) (w : World α) :
    (∀ s, (setPrec l p w).1 s = if l.out = some s ∨ s ∈ l.extra then { w s with prec := p } else w s) ∧
    (setPrec l p w).2 = (match l.out with | some s => (w s).prec | none => p) ∧
    (∀ s, (setFlags l f w).1 s = if l.out = some s ∨ s ∈ l.extra then { w s with fmt := f } else w s) ∧
    (setFlags l f w).2 = (match l.out with | some s => (w s).fmt | none => f) := by
  unfold setPrec setFlags
  refine ⟨?_, ?_, ?_, ?_⟩
  · intro s
    cases e : l.out with
    | none =>
      have := fold_set (fun c : Stream α => { c with prec := p }) (fun c => rfl) l.extra w s
      simpa using this
    | some t =>
      have := fold_set (fun c : Stream α => { c with prec := p }) (fun c => rfl) l.extra (upd w t fun c => { c with prec := p }) s
      simp only [this]
      by_cases h : s = t
      · subst h; by_cases h2 : s ∈ l.extra <;> simp [upd, h2]
      · have h' : ¬ t = s := fun e => h e.symm
        simp [upd, h, h']
  · cases l.out <;> rfl
  · intro s
    cases e : l.out with
    | none =>
      have := fold_set (fun c : Stream α => { c with fmt := f }) (fun c => rfl) l.extra w s
      simpa using this
    | some t =>
      have := fold_set (fun c : Stream α => { c with fmt := f }) (fun c => rfl) l.extra (upd w t fun c => { c with fmt := f }) s
      simp only [this]
      by_cases h : s = t
      · subst h; by_cases h2 : s ∈ l.extra <;> simp [upd, h2]
      · have h' : ¬ t = s := fun e => h e.symm
        simp [upd, h, h']
  · cases l.out <;> rfl

/-- With a main stream the precision that was set is reported, and setting it back to the result restores it. -/
theorem C96_precision (l : Log) (p : Int) (w : World α) (s : Nat) (hs : l.out = some s) :
    getPrec l (setPrec l p w).1 = p ∧ getPrec l (setPrec l (setPrec l p w).2 (setPrec l p w).1).1 = getPrec l w := by
  have h1 := (C96_format l p 0 w).1 s
  rw [if_pos (Or.inl hs)] at h1
  have h2 : (setPrec l p w).2 = (w s).prec := by rw [(C96_format l p 0 w).2.1, hs]
  have h3 := (C96_format l (setPrec l p w).2 0 (setPrec l p w).1).1 s
  rw [if_pos (Or.inl hs)] at h3
  unfold getPrec
  rw [hs]
  exact ⟨by simp only [h1], by simp only [h3]; exact h2⟩

/-- Process 1 prints to stream 0 only if it is the printing process; stream 5 is subscribed twice and removed once. -/
example :
    let w : World Nat := fun _ => ⟨[], 6, 0⟩
    let r := [Call.setPIDs 0 1, .add 5 false, .add 5 false, .write 10, .remove 5, .write 11, .setPIDs 1 1, .write 12, .add 7 true, .write 13].foldl step (⟨some 0, [], 0, 0⟩, w)
    (r.2 0).text = [12, 13] ∧ (r.2 5).text = [10, 10, 11, 12] ∧ (r.2 7).text = [13] := by decide

/-! ## ControlFIFO -/

variable {C E : Type}

theorem lookup_append (l m : List (String × C)) (x : String) : (l ++ m).lookup x = (l.lookup x).or (m.lookup x) := by
  induction l with
  | nil => simp
  | cons a l ih =>
    obtain ⟨y, c⟩ := a
    simp only [List.cons_append, List.lookup_cons]
    split <;> simp_all

/-- The callback of a context is that registered first, and other contexts do not matter. -/
theorem C97_register (f : Fifo C) (x y : String) (c : C) :
    (f.register x c).callbacks.lookup y = (f.callbacks.lookup y).or (if x = y then some c else none) ∧ (f.register x c).isOpen = f.isOpen := by
  unfold Fifo.register
  constructor
  · split
    · rename_i h
      by_cases e : x = y
      · subst e
        obtain ⟨v, hv⟩ := Option.isSome_iff_exists.mp h
        rw [hv]; rfl
      · simp [e]
    · rw [lookup_append]
      by_cases e : x = y
      · subst e; simp
      · have e' : ¬ y = x := fun h => e h.symm
        have : (y == x) = false := by simp [e']
        simp [e, List.lookup_cons, this]
  · split <;> rfl

/-- Polling an open pipe with less than 2048 bytes takes all of them; the callbacks are called for the children of the root element, in their order, with their
elements; children without callback are left out.  Nothing is called for an empty or illegal message. -/
theorem C97_poll (parse : List Nat → Option (List (String × E))) (f : Fifo C) (ho : f.isOpen = true) (content : List Nat) (hl : content.length < 2048) :
    f.poll parse content = some ([], match content.takeWhile (· ≠ 0) with
      | [] => []
      | t => ((parse t).getD []).filterMap fun e => (f.callbacks.lookup e.1).map fun c => (c, e.2)) := by
  have h1 : content.take bufSize = content := List.take_of_length_le (by unfold bufSize; omega)
  have h2 : content.drop bufSize = [] := List.drop_of_length_le (by unfold bufSize; omega)
  have h3 : ¬ content.length ≥ bufSize := by unfold bufSize; omega
  unfold Fifo.poll
  simp only [ho, h1, h2, if_neg h3]
  cases e : content.takeWhile (· ≠ 0) with
  | nil => simp
  | cons a l =>
    simp only [reduceCtorEq, if_false, Bool.true_eq_false]
    cases parse (a :: l) <;> simp

/-- F191: if 2048 bytes or more are in the pipe, the terminating zero is written beyond the buffer; this is the only failure. -/
theorem C97_overflow (parse : List Nat → Option (List (String × E))) (f : Fifo C) (content : List Nat) :
    f.poll parse content = none ↔ f.isOpen = true ∧ 2048 ≤ content.length := by
  constructor
  · intro h
    by_cases ho : f.isOpen = true
    · refine ⟨ho, ?_⟩
      by_contra hl
      rw [C97_poll parse f ho content (by omega)] at h
      cases h
    · simp [Fifo.poll, ho] at h
  · rintro ⟨ho, hl⟩
    unfold Fifo.poll
    have : (content.take bufSize).length ≥ bufSize := by rw [List.length_take]; unfold bufSize; omega
    simp only [ho, Bool.true_eq_false, if_false, if_pos this]

/-- A pipe that is not open gives nothing. -/
theorem C97_closed (parse : List Nat → Option (List (String × E))) (f : Fifo C) (ho : f.isOpen = false) (content : List Nat) :
    f.poll parse content = some (content, []) := by simp [Fifo.poll, ho]

/-- Over any sequence of actions: the callbacks are those registered first, and the pipe stays open or closed. -/
theorem C97_callbacks (parse : List Nat → Option (List (String × E))) (l : List (Act C)) (s t : FState C E) (h : acts parse s l = some t) (x : String) :
    t.f.callbacks.lookup x = (s.f.callbacks.lookup x).or (firstReg x l) ∧ t.f.isOpen = s.f.isOpen := by
  induction l generalizing s with
  | nil => cases h; simp [firstReg]
  | cons a l ih =>
    unfold acts at h
    obtain ⟨u, hu, h⟩ := Option.bind_eq_some_iff.mp h
    obtain ⟨i1, i2⟩ := ih u h
    cases a with
    | register y c =>
      cases hu
      obtain ⟨r1, r2⟩ := C97_register s.f y x c
      refine ⟨?_, i2.trans r2⟩
      rw [i1]
      show ((s.f.register y c).callbacks.lookup x).or _ = _
      rw [r1, Option.or_assoc]
      congr 1
      show _ = (if y = x then some c else firstReg x l)
      by_cases e : y = x <;> simp [e]
    | send m => cases hu; exact ⟨i1, i2⟩
    | poll =>
      unfold act at hu
      simp only at hu
      split at hu
      · cases hu
      · cases hu; exact ⟨i1, i2⟩

/-- A message which is polled before the next one is sent calls the callbacks for its elements, after any history that left the pipe empty. -/
theorem C97_message (parse : List Nat → Option (List (String × E))) (l : List (Act C)) (s t : FState C E) (hs : s.f.isOpen = true) (hc : s.f.callbacks = [])
    (h : acts parse s l = some t) (ht : t.content = []) (msg : List Nat) (hm : msg ≠ []) (h0 : 0 ∉ msg) (hl : msg.length < 2048) (els : List (String × E)) (hp : parse msg = some els) :
    acts parse t [.send msg, .poll] = some ⟨t.f, [], t.calls ++ els.filterMap fun e => (firstReg e.1 l).map fun c => (c, e.2)⟩ := by
  have ho : t.f.isOpen = true := ((C97_callbacks parse l s t h "").2).trans hs
  have hk : ∀ x, t.f.callbacks.lookup x = firstReg x l := by
    intro x; rw [(C97_callbacks parse l s t h x).1, hc]; simp
  have e : act parse t (.send msg) = some { t with content := msg } := by simp [act, ht]
  have hw : msg.takeWhile (· ≠ 0) = msg := by
    have : ∀ m : List Nat, 0 ∉ m → m.takeWhile (· ≠ 0) = m := by
      intro m
      induction m with
      | nil => intro _; rfl
      | cons a m ih =>
        intro h
        simp only [List.mem_cons, not_or] at h
        rw [List.takeWhile_cons, if_pos (by simpa using fun e => h.1 e.symm), ih h.2]
    exact this msg h0
  have e2 : t.f.poll parse msg = some ([], els.filterMap fun e => (firstReg e.1 l).map fun c => (c, e.2)) := by
    rw [C97_poll parse t.f ho msg hl, hw]
    cases msg with
    | nil => exact absurd rfl hm
    | cons a m => simp [hp, hk]
  simp only [acts, e, Option.bind_some]
  simp only [act, e2, Option.bind_some]

/-- A parser for documents `<root>` given by the bytes of their children, up to the end of the first root element (9). -/
def exParse (t : List Nat) : Option (List (String × Nat)) := some ((t.takeWhile (· ≠ 9)).map fun n => (if n = 1 then "a" else if n = 2 then "b" else "c", n))

/-- F192: of two messages which are sent before the pipe is polled, only the first one is handled. -/
theorem C97_two_messages :
    (acts (C := Nat) exParse ⟨⟨true, []⟩, [], []⟩ [.register "a" 10, .register "a" 11, .register "b" 20, .send [1, 3, 2, 9], .send [2, 9], .poll, .poll]).map (·.calls) =
      some [(10, 1), (20, 2)] ∧
    (acts (C := Nat) exParse ⟨⟨true, []⟩, [], []⟩ [.register "a" 10, .register "a" 11, .register "b" 20, .send [1, 3, 2, 9], .poll, .send [2, 9], .poll]).map (·.calls) =
      some [(10, 1), (20, 2), (20, 2)] := by decide +kernel

end IFEM.LogFifo
