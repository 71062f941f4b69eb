import Verif.Lemmas.Frame
/-!
# C26 and C27: variables have separate storage; a call starts with the right contents
-/
set_option autoImplicit false
namespace PySOM.Frame
open PySOM

variable {V : Type}

theorem count_pos_of (l : List Bool) : 0 < l.count true ↔ true ∈ l := List.count_pos_iff

/-- **C26.**  For all combinations of captured and private arguments and locals, the storage assignment at the end of
compiling a method or block gives every variable a place of its own, inside of the storage that an activation allocates, and
away from the receiver and the bookkeeping.  `args` has the flag of the receiver first, as it is always there. -/
theorem C26_separate_storage (self : Bool) (rest locals : List Bool) (ctx : Bool) :
    ∃ m, prepareFrame (self :: rest) locals ctx = .ok m ∧ m.argInner = rest ∧ Spec.Separate (self :: rest) locals ctx m := by
  refine ⟨_, rfl, rfl, ?_⟩
  have ca := separate_counts argOffset argOffset rest 0 0
  generalize ha : separate argOffset argOffset rest 0 0 = a at ca
  have cl := separate_counts (argOffset + a.2.1) (argOffset + a.2.2) locals 0 0
  simp only [Nat.zero_add] at ca cl
  have ba := separate_bounds argOffset argOffset rest 0 0
  have bl := separate_bounds (argOffset + a.2.1) (argOffset + a.2.2) locals 0 0
  have na := separate_nodup argOffset argOffset rest 0 0
  have nl := separate_nodup (argOffset + a.2.1) (argOffset + a.2.2) locals 0 0
  rw [ha] at ba na
  have e1 : a.2.1 = rest.count false := by rw [ca]
  have e2 : a.2.2 = rest.count true := by rw [ca]
  have hm : (true ∈ self :: rest ++ locals) ↔ (self = true ∨ 0 < rest.count true + locals.count true) := by
    have h1 := count_pos_of rest
    have h2 := count_pos_of locals
    have : (0 < rest.count true + locals.count true) ↔ (0 < rest.count true ∨ 0 < locals.count true) := by omega
    rw [this, h1, h2]
    simp [eq_comm]
  simp only [argOffset, Nat.zero_add] at ba bl
  refine ⟨?_, ?_, ?_, ?_, rfl, ?_, ?_⟩
  · simp only [ha, List.length_cons, Nat.succ.injEq]; rw [← ha, separate_length]
  · simp only [separate_length]
  · simp only [Spec.places, List.tail_cons, ha]
    rw [List.nodup_append]
    refine ⟨na, nl, ?_⟩
    intro p hp q hq hpq
    subst hpq
    have h1 := ba p hp
    have h2 := bl p hq
    cases hb : p.1 with
    | true => have := h1.2 hb; have := h2.2 hb; omega
    | false => have := h1.1 hb; have := h2.1 hb; omega
  · intro p hp
    simp only [Spec.places, List.tail_cons, ha, List.mem_append] at hp
    simp only [ha, cl]
    rcases hp with hp | hp
    · have h1 := ba p hp
      cases hb : p.1 with
      | true =>
        have := h1.2 hb
        have hpos : (0 < a.2.2 + List.count true locals) := by omega
        simp only [if_true, hpos, decide_true, Bool.or_true, Bool.true_or]; omega
      | false => have := h1.1 hb; simp only [Bool.false_eq_true, if_false]; omega
    · have h1 := bl p hp
      cases hb : p.1 with
      | true =>
        have := h1.2 hb
        have hpos : (0 < a.2.2 + List.count true locals) := by omega
        simp only [if_true, hpos, decide_true, Bool.or_true, Bool.true_or]; omega
      | false => have := h1.1 hb; simp only [Bool.false_eq_true, if_false]; omega
  · simp only [ha, cl, List.tail_cons, List.count_append]; omega
  · simp only [ha, cl, List.tail_cons, List.count_append, hm]
    cases ctx <;> cases self <;> simp only [Bool.false_eq_true, Bool.true_or, Bool.false_or, Bool.or_true, Bool.or_false, if_true, false_or, true_or, decide_eq_true_eq] <;> (repeat' split) <;> omega

/-- Four arguments and three locals, some captured. -/
example : (prepareFrame [true, false, true, false, true] [true, false, false] false).toOption =
    some { argInner := [false, true, false, true], sizeFrame := 6, sizeInner := 5,
           argIdx := [1, 2, 2, 3, 3], localIdx := [4, 4, 5] } := by decide

/-- A method without any captured variable has no context. -/
example : ((prepareFrame [false, false] [false] false).toOption.map Layout.sizeInner) = some 0 := by decide

/-! ## C27 -/

theorem readVar_false (f : Fr V) (i : Nat) (v : V) : readVar f false i = .ok v ↔ f.slots[i]? = some v := by
  simp only [readVar, Bool.false_eq_true, if_false, pyGet_ok]

theorem readVar_true (f : Fr V) (l : List V) (h : f.inner = some l) (i : Nat) (v : V) : readVar f true i = .ok v ↔ l[i]? = some v := by
  simp only [readVar, if_true, h, pyGet_ok]

/-- All uncaptured. -/
theorem separate_all_false (fo io : Nat) (bs : List Bool) (nl nn i : Nat) (h : true ∉ bs) (hi : i < bs.length) :
    (separate fo io bs nl nn).1[i]? = some (nl + i + fo) := by
  induction bs generalizing nl i with
  | nil => simp at hi
  | cons b bs ih =>
    simp only [List.mem_cons, not_or] at h
    cases b with
    | true => simp at h
    | false =>
      cases i with
      | zero => simp [separate]
      | succ i =>
        simp only [separate, List.getElem?_cons_succ]
        rw [ih (nl + 1) i h.2 (by simpa using hi)]
        congr 1; omega

/-- The general way of creating a frame meets the specification. -/
theorem createFrameArgs_fresh (nil tru rcvr : V) (args : List V) (self : Bool) (rest locals : List Bool) (ctx : Bool) (m : Layout)
    (hm : prepareFrame (self :: rest) locals ctx = .ok m) (hargs : args.length = rest.length) :
    ∃ f, createFrameArgs nil tru rcvr args m.argInner m.sizeFrame m.sizeInner = .ok f ∧ Spec.Fresh nil tru rcvr args (self :: rest) locals m f := by
  obtain ⟨m', h1, h2, h3⟩ := C26_separate_storage self rest locals ctx
  rw [hm] at h1
  injection h1 with h1
  subst h1
  have hsf := h3.frame_size
  have hsi := h3.inner_size
  simp only [List.tail_cons, List.count_append] at hsf hsi
  obtain ⟨f, o1, o2, o3, o4, o5⟩ := openFrame_spec nil tru rcvr m.sizeFrame m.sizeInner (by omega) (by rw [hsi]; split <;> omega)
  have hidx : m.argIdx = 1 :: (separate argOffset argOffset rest 0 0).1 ∧ m.localIdx = (separate (argOffset + rest.count false) (argOffset + rest.count true) locals 0 0).1 := by
    have ca := separate_counts argOffset argOffset rest 0 0
    simp only [prepareFrame, Except.ok.injEq] at hm
    rw [← hm]
    simp only [ca, Nat.zero_add]
    exact ⟨rfl, trivial⟩
  have hlb : ∀ (i : Nat) (c : Bool) (idx : Nat), locals[i]? = some c → m.localIdx[i]? = some idx → (c, idx) ∈ locals.zip m.localIdx := by
    intro i c idx a b
    rw [List.mem_iff_getElem?]
    exact ⟨i, by rw [List.getElem?_zip_eq_some]; exact ⟨a, b⟩⟩
  have hbl := separate_bounds (argOffset + rest.count false) (argOffset + rest.count true) locals 0 0
  rw [← hidx.2] at hbl
  simp only [argOffset, Nat.zero_add] at hbl
  have hinside : ∀ (i : Nat) (c : Bool) (idx : Nat), locals[i]? = some c → m.localIdx[i]? = some idx → idx < (if c then m.sizeInner else m.sizeFrame) := by
    intro i c idx a b
    exact (h3.inside (c, idx) (List.mem_append_right _ (hlb i c idx a b))).2
  have hempty : ∀ idx, 2 ≤ idx → idx < m.sizeFrame → readVar f false idx = .ok nil := by
    intro idx a b
    rw [readVar_false, o3, List.getElem?_set_ne (by omega)]
    simp [b]
  have hemptyI : ∀ idx, 2 ≤ idx → idx < m.sizeInner → readVar f true idx = .ok nil := by
    intro idx a b
    rw [readVar_true f _ (o5 (by omega)), List.getElem?_set_ne (by omega), List.getElem?_set_ne (by omega)]
    simp [b]
  have hself : readVar f false 1 = .ok rcvr := by
    rw [readVar_false, o3, List.getElem?_set_self (by simp; omega)]
  simp only [createFrameArgs, o1, bind, Except.bind, h2, hargs, ne_eq, not_true_eq_false, if_false]
  by_cases hs : 0 < m.sizeInner
  · simp only [show (m.sizeInner > 0) = True from eq_true hs, if_true]
    have hcount : 2 + rest.count true ≤ m.sizeInner := by
      rw [hsi] at hs ⊢
      split at hs
      · rename_i hc; rw [if_pos hc]; omega
      · omega
    obtain ⟨f', a1, a2, a3, a4, a5⟩ := setArgsWith_spec args rest 0 0 argOffset argOffset f _ hargs (o5 hs)
      (by simp only [argOffset]; omega) (by simp only [argOffset, List.length_set, List.length_replicate]; omega)
    simp only [argOffset, Nat.zero_add] at a1 a5
    refine ⟨f', a1, ?_, ?_, ?_, ?_, ?_, ?_⟩
    · intro i v c idx hv hc hi
      rw [hidx.1] at hi
      exact a4 i v c idx hv (by simpa using hc) (by simpa using hi)
    · intro i c idx hc hi
      have hb := hbl _ (hlb i c idx hc hi)
      have hins := hinside i c idx hc hi
      cases c with
      | true =>
        have := hb.2 rfl
        simp only [if_true] at hins this
        rw [a5 true idx (by simp) (by omega), hemptyI idx (by omega) hins]
      | false =>
        have := hb.1 rfl
        simp only [Bool.false_eq_true, if_false] at hins this
        rw [a5 false idx (by omega) (by simp), hempty idx (by omega) hins]
    · rw [a5 false 1 (by omega) (by simp), hself]
    · omega
    · omega
    · intro _
      have hlen := a3
      rw [o5 hs] at hlen
      cases hf : f'.inner with
      | none => rw [hf] at hlen; cases hlen
      | some l =>
        rw [hf] at hlen
        simp only [Option.map_some, Option.some.injEq, List.length_set, List.length_replicate] at hlen
        refine ⟨l, rfl, hlen, ?_, ?_⟩
        · rw [← readVar_true f' l hf, a5 true 0 (by simp) (by omega), readVar_true f _ (o5 hs),
            List.getElem?_set_ne (by omega), List.getElem?_set_self (by simpa using hs)]
        · rw [← readVar_true f' l hf, a5 true 1 (by simp) (by omega), readVar_true f _ (o5 hs),
            List.getElem?_set_self (by simp; omega)]
  · simp only [show (m.sizeInner > 0) = False from eq_false hs, if_false]
    have hnone : ¬ (ctx = true ∨ true ∈ self :: rest ++ locals) := by
      intro hc; rw [if_pos hc] at hsi; omega
    have hnr : true ∉ rest := fun h => hnone (Or.inr (by simp [h]))
    have hnl : true ∉ locals := fun h => hnone (Or.inr (by simp [h]))
    have hcf : rest.count false = rest.length := by
      rw [List.count_eq_length]
      intro b hb
      cases b with
      | true => exact absurd hb hnr
      | false => rfl
    obtain ⟨f', a1, a2, a3, a4, a5⟩ := setArgsWithout_spec args argOffset f (by simp only [argOffset]; omega)
    simp only [argOffset] at a1 a4 a5
    refine ⟨f', a1, ?_, ?_, ?_, ?_, ?_, ?_⟩
    · intro i v c idx hv hc hi
      have hc' : rest[i]? = some c := by simpa using hc
      have hcm := List.mem_of_getElem? hc'
      have : c = false := by cases c with | true => exact absurd hcm hnr | false => rfl
      subst this
      rw [hidx.1, List.getElem?_cons_succ, separate_all_false _ _ _ _ _ _ hnr (by
        rcases Nat.lt_or_ge i rest.length with hl | hl
        · exact hl
        · rw [List.getElem?_eq_none hl] at hc'; cases hc')] at hi
      injection hi with hi
      subst hi
      rw [show 0 + i + argOffset = 2 + i by simp only [argOffset]; omega]
      exact a4 i v hv
    · intro i c idx hc hi
      have hb := hbl _ (hlb i c idx hc hi)
      have hins := hinside i c idx hc hi
      have hcm := List.mem_of_getElem? hc
      cases c with
      | true => exact absurd hcm hnl
      | false =>
        have := hb.1 rfl
        simp only [Bool.false_eq_true, if_false] at hins this
        rw [a5 idx (by omega), hempty idx (by omega) hins]
    · rw [a5 1 (by omega), hself]
    · omega
    · intro _; rw [a3]; exact o4 (by omega)
    · intro h; exact absurd h hs

/-- The special case for one argument. -/
theorem createFrame2_eq (nil tru rcvr a : V) (b : Bool) (sf si : Nat) :
    createFrame2 nil tru rcvr a (if si > 0 then b else false) sf si = createFrameArgs nil tru rcvr [a] [b] sf si := by
  simp only [createFrame2, createFrameArgs]
  cases openFrame nil tru rcvr sf si with
  | error e => rfl
  | ok f =>
    simp only [bind, Except.bind, List.length_cons, List.length_nil, ne_eq, not_true_eq_false, if_false]
    by_cases h : si > 0
    · cases b <;> simp only [h, if_true, Bool.false_eq_true, if_false, setArgsWith, bind, Except.bind, rcvrIdx, argOffset] <;> split <;> simp_all
    · simp only [h, if_false, setArgsWithout, bind, Except.bind, rcvrIdx, argOffset]; split <;> simp_all

theorem setArgsWith_one (v : V) (b : Bool) (fi ii : Nat) (f : Fr V) :
    setArgsWith [v] [b] fi ii f = if b then putAt f true ii v else putAt f false fi v := by
  cases b
  · simp only [setArgsWith, Bool.false_eq_true, if_false]; cases putAt f false fi v <;> rfl
  · simp only [setArgsWith, if_true]; cases putAt f true ii v <;> rfl

theorem setArgsWithout_one (v : V) (fi : Nat) (f : Fr V) : setArgsWithout [v] fi f = putAt f false fi v := by
  simp only [setArgsWithout]; cases putAt f false fi v <;> rfl

theorem createFrame3_eq (nil tru rcvr a b : V) (c d : Bool) (sf si : Nat) :
    createFrame3With nil tru rcvr a b c d sf si = createFrameArgs nil tru rcvr [a, b] [c, d] sf si := by
  simp only [createFrame3With, createFrameArgs]
  cases openFrame nil tru rcvr sf si with
  | error e => rfl
  | ok f =>
    simp only [bind, Except.bind, List.length_cons, List.length_nil, ne_eq, not_true_eq_false, if_false]
    by_cases h : si > 0
    · simp only [h, if_true]
      cases c
      · rw [setArgsWith]
        simp only [setArgsWith_one, Bool.false_eq_true, if_false, bind, Except.bind]; rfl
      · rw [setArgsWith]
        simp only [setArgsWith_one, if_true, bind, Except.bind]; rfl
    · simp only [h, if_false]
      rw [setArgsWithout]
      simp only [setArgsWithout_one, bind, Except.bind]; rfl

theorem createFrame2_flag (nil tru rcvr a : V) (b : Bool) (sf si : Nat) :
    createFrame2 nil tru rcvr a b sf si = createFrame2 nil tru rcvr a (if si > 0 then b else false) sf si := by
  simp only [createFrame2]
  by_cases h : si > 0 <;> simp [h]

theorem createFrame3_flag (nil tru rcvr a b : V) (c d c' d' : Bool) (sf si : Nat) (h : si > 0 → c = c' ∧ d = d') :
    createFrame3With nil tru rcvr a b c d sf si = createFrame3With nil tru rcvr a b c' d' sf si := by
  simp only [createFrame3With]
  by_cases hs : si > 0
  · rw [(h hs).1, (h hs).2]
  · simp [hs]

theorem activateAst_eq (nil tru rcvr : V) (args : List V) (m : Layout) (h : args.length = m.argInner.length) :
    activateAst nil tru rcvr args m = createFrameArgs nil tru rcvr args m.argInner m.sizeFrame m.sizeInner := by
  match args, hA : m.argInner with
  | [], [] =>
    simp only [activateAst, createFrame1, createFrameArgs]
    cases openFrame nil tru rcvr m.sizeFrame m.sizeInner with
    | error e => rfl
    | ok f => simp [bind, Except.bind, setArgsWith, setArgsWithout]
  | [a], [b] =>
    have : pyGet [b] 0 = .ok b := rfl
    simp only [activateAst, hA, this, bind, Except.bind]
    rw [createFrame2_flag, createFrame2_eq]
  | [a, b], [c, d] =>
    have e1 : pyGet [c, d] 0 = .ok c := rfl
    have e2 : pyGet [c, d] 1 = .ok d := rfl
    simp only [activateAst, createFrame3, hA, e1, e2]
    by_cases hs : m.sizeInner > 0
    · simp only [hs, if_true, bind, Except.bind]; exact createFrame3_eq ..
    · simp only [hs, if_false, bind, Except.bind]
      rw [← createFrame3_eq]; exact createFrame3_flag _ _ _ _ _ _ _ _ _ _ _ (fun h => absurd h hs)
  | _ :: _ :: _ :: _, _ => simp only [activateAst, hA]
  | [], _ :: _ => rw [hA] at h; cases h
  | [_], [] => rw [hA] at h; cases h
  | [_], _ :: _ :: _ => rw [hA] at h; cases h
  | [_, _], [] => rw [hA] at h; cases h
  | [_, _], [_] => rw [hA] at h; cases h
  | [_, _], _ :: _ :: _ :: _ => rw [hA] at h; cases h

theorem activateBc_eq (nil tru rcvr : V) (args : List V) (m : Layout) (h : args.length = m.argInner.length) (h2 : args.length ≤ 2) :
    activateBc nil tru rcvr args m = createFrameArgs nil tru rcvr args m.argInner m.sizeFrame m.sizeInner := by
  rw [← activateAst_eq nil tru rcvr args m h]
  match args, hA : m.argInner with
  | [], [] => rfl
  | [a], [b] => simp [activateBc, activateAst, reversedFlags, hA]
  | [a, b], [c, d] =>
    have e1 : pyGet [c, d] 0 = .ok c := rfl
    have e2 : pyGet [c, d] 1 = .ok d := rfl
    have e3 : pyGet [d, c] 0 = .ok d := rfl
    have e4 : pyGet [d, c] 1 = .ok c := rfl
    have er : reversedFlags m = [d, c] := by simp [reversedFlags, hA]
    simp only [activateBc, activateAst, createFrame3Bc, createFrame3, er, hA, e1, e2, e3, e4]
  | _ :: _ :: _ :: _, _ => simp at h2
  | [], _ :: _ => rw [hA] at h; cases h
  | [_], [] => rw [hA] at h; cases h
  | [_], _ :: _ :: _ => rw [hA] at h; cases h
  | [_, _], [] => rw [hA] at h; cases h
  | [_, _], [_] => rw [hA] at h; cases h
  | [_, _], _ :: _ :: _ :: _ => rw [hA] at h; cases h

theorem reversedFlags_get (m : Layout) (i : Nat) (b : Bool) (h : m.argInner[i]? = some b) :
    pyGet (reversedFlags m) ((m.argInner.length - 1 - i : Nat) : Int) = .ok b := by
  have hi : i < m.argInner.length := by
    rcases Nat.lt_or_ge i m.argInner.length with hl | hl
    · exact hl
    · rw [List.getElem?_eq_none hl] at h; cases h
  apply pyGet_some
  unfold reversedFlags
  split
  · rw [List.getElem?_reverse (by omega)]
    rw [show m.argInner.length - 1 - (m.argInner.length - 1 - i) = i by omega]; exact h
  · rw [show m.argInner.length - 1 - i = i by omega]; exact h

theorem reversedFlags_length (m : Layout) : (reversedFlags m).length = m.argInner.length := by
  unfold reversedFlags; split <;> simp

/-- The bytecode interpreter's general activation takes the receiver and the arguments from the caller's stack:
`below ++ [receiver, arg 1, …, arg n] ++ above`, the stack pointer being at the last argument. -/
theorem activateBcN_eq (nil tru rcvr : V) (below args above : List V) (m : Layout) (h : args.length = m.argInner.length) :
    activateBcN nil tru (below ++ rcvr :: args ++ above) ((below.length + args.length : Nat) : Int) (args.length + 1) m =
      createFrameArgs nil tru rcvr args m.argInner m.sizeFrame m.sizeInner := by
  have hst : ∀ (i : Nat) v, args[i]? = some v →
      pyGet (below ++ rcvr :: args ++ above) (((below.length + args.length : Nat) : Int) - ((args.length - 1 - i : Nat) : Int)) = .ok v := by
    intro i v hv
    have hi : i < args.length := by
      rcases Nat.lt_or_ge i args.length with hl | hl
      · exact hl
      · rw [List.getElem?_eq_none hl] at hv; cases hv
    rw [show (((below.length + args.length : Nat) : Int) - ((args.length - 1 - i : Nat) : Int)) = ((below.length + 1 + i : Nat) : Int) by omega]
    apply pyGet_some
    rw [List.append_assoc, List.getElem?_append_right (by omega), show below.length + 1 + i - below.length = i + 1 by omega]
    simp only [List.cons_append, List.getElem?_cons_succ]
    rw [List.getElem?_append_left hi]; exact hv
  have hr : pyGet (below ++ rcvr :: args ++ above) (((below.length + args.length : Nat) : Int) - (((args.length + 1 : Nat) : Int) - 1)) = .ok rcvr := by
    rw [show (((below.length + args.length : Nat) : Int) - (((args.length + 1 : Nat) : Int) - 1)) = ((below.length : Nat) : Int) by omega]
    apply pyGet_some
    rw [List.append_assoc, List.getElem?_append_right (by omega)]
    simp
  have hn : ¬ (((args.length + 1 : Nat) : Int) - 1 ≠ (reversedFlags m).length) := by rw [reversedFlags_length]; omega
  have hn2 : ¬ (args.length ≠ m.argInner.length) := by omega
  simp only [activateBcN, createFrameBc, hr, bind, Except.bind, hn, if_false, createFrameArgs, hn2, Nat.add_sub_cancel]
  cases openFrame nil tru rcvr m.sizeFrame m.sizeInner with
  | error e => rfl
  | ok f =>
    simp only
    split
    · exact setArgsWithBc_eq (reversedFlags m) _ _ args m.argInner h hst (fun i b hb => reversedFlags_get m i b hb) _ _ f
    · exact setArgsWithoutBc_eq _ _ args hst _ f

/-- **C27.**  A call of a method with the right number of arguments starts with every argument in its place, all locals nil and
the receiver in the frame and in the context, for all patterns of captured and private arguments and however many there are.
`AstMethod.invoke_1`, `invoke_2`, `invoke_3`, `invoke_args`. -/
theorem C27_activation_ast (nil tru rcvr : V) (args : List V) (self : Bool) (rest locals : List Bool) (ctx : Bool) (m : Layout)
    (hm : prepareFrame (self :: rest) locals ctx = .ok m) (hargs : args.length = rest.length) :
    ∃ f, activateAst nil tru rcvr args m = .ok f ∧ Spec.Fresh nil tru rcvr args (self :: rest) locals m f := by
  obtain ⟨m', h1, h2, _⟩ := C26_separate_storage self rest locals ctx
  rw [hm] at h1; injection h1 with h1; subst h1
  rw [activateAst_eq _ _ _ _ _ (by rw [h2]; exact hargs)]
  exact createFrameArgs_fresh nil tru rcvr args self rest locals ctx m hm hargs

/-- The same for `BcMethod.invoke_1`, `invoke_2`, `invoke_3`, … -/
theorem C27_activation_bc (nil tru rcvr : V) (args : List V) (self : Bool) (rest locals : List Bool) (ctx : Bool) (m : Layout)
    (hm : prepareFrame (self :: rest) locals ctx = .ok m) (hargs : args.length = rest.length) (h2 : args.length ≤ 2) :
    ∃ f, activateBc nil tru rcvr args m = .ok f ∧ Spec.Fresh nil tru rcvr args (self :: rest) locals m f := by
  obtain ⟨m', h1, h3, _⟩ := C26_separate_storage self rest locals ctx
  rw [hm] at h1; injection h1 with h1; subst h1
  rw [activateBc_eq _ _ _ _ _ (by rw [h3]; exact hargs) h2]
  exact createFrameArgs_fresh nil tru rcvr args self rest locals ctx m hm hargs

/-- … and for `BcMethod.invoke_n`, which takes the arguments from the caller's stack, for any contents of the rest of it. -/
theorem C27_activation_bc_n (nil tru rcvr : V) (below args above : List V) (self : Bool) (rest locals : List Bool) (ctx : Bool) (m : Layout)
    (hm : prepareFrame (self :: rest) locals ctx = .ok m) (hargs : args.length = rest.length) :
    ∃ f, activateBcN nil tru (below ++ rcvr :: args ++ above) ((below.length + args.length : Nat) : Int) (args.length + 1) m = .ok f ∧
      Spec.Fresh nil tru rcvr args (self :: rest) locals m f := by
  obtain ⟨m', h1, h3, _⟩ := C26_separate_storage self rest locals ctx
  rw [hm] at h1; injection h1 with h1; subst h1
  rw [activateBcN_eq _ _ _ _ _ _ _ (by rw [h3]; exact hargs)]
  exact createFrameArgs_fresh nil tru rcvr args self rest locals ctx m hm hargs

/-- The two interpreters start a call of at most two arguments in the same way, and in the way of the general case. -/
theorem C27_same_start (nil tru rcvr : V) (below args above : List V) (m : Layout) (hargs : args.length = m.argInner.length) :
    activateAst nil tru rcvr args m =
      activateBcN nil tru (below ++ rcvr :: args ++ above) ((below.length + args.length : Nat) : Int) (args.length + 1) m ∧
    (args.length ≤ 2 → activateAst nil tru rcvr args m = activateBc nil tru rcvr args m) := by
  rw [activateAst_eq _ _ _ _ _ hargs, activateBcN_eq _ _ _ _ _ _ _ hargs]
  exact ⟨rfl, fun h => (activateBc_eq _ _ _ _ _ hargs h).symm⟩

/-- The general calls with a wrong number of arguments are refused instead of running with garbage. -/
theorem C27_wrong_number (nil tru rcvr : V) (args : List V) (argInner : List Bool) (sf si : Nat) (h : args.length ≠ argInner.length)
    (f : Fr V) : createFrameArgs nil tru rcvr args argInner sf si ≠ .ok f := by
  simp only [createFrameArgs]
  cases openFrame nil tru rcvr sf si with
  | error e => simp [bind, Except.bind]
  | ok g => simp [bind, Except.bind, h]

/-- Three arguments, the second captured, one local: nil is 0, true is 1, the receiver is 7. -/
example : activateAst 0 1 7 [10, 20, 30] { argInner := [false, true, false], sizeFrame := 5, sizeInner := 3, argIdx := [1, 2, 2, 3], localIdx := [4] } =
    .ok { inner := some [1, 7, 20], slots := [0, 7, 10, 30, 0] } := by rfl
example : activateBcN 0 1 [99, 7, 10, 20, 30, 55] 4 4 { argInner := [false, true, false], sizeFrame := 5, sizeInner := 3, argIdx := [1, 2, 2, 3], localIdx := [4] } =
    .ok { inner := some [1, 7, 20], slots := [0, 7, 10, 30, 0] } := by rfl
example : prepareFrame [false, false, true, false] [false] false =
    .ok { argInner := [false, true, false], sizeFrame := 5, sizeInner := 3, argIdx := [1, 2, 2, 3], localIdx := [4] } := by rfl

end PySOM.Frame
