import Verif.Lemmas.ClassFilesChain
import Verif.Props.Sends
import Verif.Props.Prims
import Verif.Props.Universe
/-!
# C72: a message runs the method that the class files say

`Model/Universe.lean` makes classes from files, `Model/Machine.lean` and `Model/Prims.lean` run programs.  Full property: whatever was loaded before, in whatever order, a message to an
instance of a class runs the method of the nearest class whose file has it, following the superclasses that the files name, and primitives of the VM for the classes that have some; the same for messages
to classes, to `super`, and to the values that have no class file of their own.

What does not hold: a program that sets globals can replace classes, which are then found as superclasses (so `Clean` excludes such names); and a file that names `True`, `False` or a class of blocks as
superclass, if it is loaded during the start, makes a second class of that name (`C72_violated`).
-/
set_option autoImplicit false
namespace PySOM.Boot
open PySOM.Mach (Image Nearest Nowhere Runs Prim Data Printed Floats St Esc Frame Incs Do Go look_find)
open PySOM.BC (Val Res Behaviour)

section
variable {env : Env} {P : Name → Prop} {s : Sys} {first u : U}

theorem After.files (h : After env P s first u) : s = sys0 ∧ Files env (fun _ => False) (fun _ => False) (fun _ => False) first ∧ Files env P (fun _ => False) (fun _ => False) u := by
  obtain ⟨k, hb⟩ := h.boot
  obtain ⟨rfl, hf⟩ := files_boot h.exit h.plain hb
  exact ⟨rfl, hf, hf.allow.goes h.exit h.plain h.goes⟩

theorem Both.described {u : U} {n : Name} {c : Cid} (h : Both env (fun _ => False) u n c) : Described env u ⟨false, n⟩ c ∧ ∃ m, (u.at c).cls = some m ∧ Described env u ⟨true, n⟩ m := by
  obtain ⟨h1, m, hm, h2⟩ := h
  exact ⟨h1.described fun _ h => h, m, hm, h2.described fun _ h => h⟩

/-! ## Classes -/

/-- C72: the class in a global with its name is the one that the files describe, on both sides, if the program has not set the globals with its name and those of its superclasses. -/
theorem C72_class (h : After env P s first u) {n : Name} {c : Cid} (hn : List.lookup n u.globals = some (.cls c)) (hP : Clean env P n) :
    Described env u ⟨false, n⟩ c ∧ ∃ m, (u.at c).cls = some m ∧ Described env u ⟨true, n⟩ m :=
  (h.files.2.2.glob n c hn hP).described

/-- C72: so is the class that loading answers. -/
theorem C72_loaded (h : After env P s first u) {n : Name} {k : Nat} {c : Cid} {u' : U} (hl : loadClass s.meta env k n u = (.ok (.cls c), u')) (hP : Clean env P n) :
    After env P s first u' ∧ Described env u' ⟨false, n⟩ c ∧ ∃ m, (u'.at c).cls = some m ∧ Described env u' ⟨true, n⟩ m := by
  have hf := h.files
  have hg : Goes s.meta env P first u' := by
    have := Goes.load first u k n h.goes
    rwa [hl] at this
  obtain ⟨rfl, _, hu⟩ := hf
  exact ⟨⟨h.exit, h.plain, h.boot, hg⟩, ((keeps_loadClass h.exit h.plain k n u (fun _ h => h) hu).2 c u' hl hP).described⟩

theorem After.special (h : After env P s first u) {n : Name} (hn : n ∈ specials) : Described env u ⟨false, n⟩ (first.named n) := by
  obtain ⟨rfl, hf, _⟩ := h.files
  obtain ⟨c, hc⟩ := hf.spec n hn (fun h => h) fun h => h
  have hb := hf.glob n c hc fun _ _ h => h
  have : first.named n = c := by unfold U.named; rw [hc]
  rw [this]
  exact (hb.same (goes_at h.goes).1).described.1

/-- C72: and those of the values that the VM makes itself, even if the program has set globals: `nil`, booleans, integers, symbols, doubles, strings, arrays, blocks. -/
theorem C72_values (h : After env P s first u) (prim : Name → Name → Prim) (blkArgs : Nat → Nat) (catches : Nat → Bool) (clsObj : Cid → Nat) :
    let I := u.image first s prim blkArgs catches clsObj
    Described env u ⟨false, "Nil".toList⟩ I.nilCls ∧ Described env u ⟨false, "True".toList⟩ I.truCls ∧ Described env u ⟨false, "False".toList⟩ I.flsCls ∧
    Described env u ⟨false, "Integer".toList⟩ I.intCls ∧ Described env u ⟨false, "Symbol".toList⟩ I.symCls ∧ Described env u ⟨false, "Double".toList⟩ I.dblCls ∧
    Described env u ⟨false, "String".toList⟩ I.strCls ∧ Described env u ⟨false, "Array".toList⟩ I.arrCls ∧ Described env u ⟨false, "Block1".toList⟩ (I.blkCls 1) ∧
    Described env u ⟨false, "Block2".toList⟩ (I.blkCls 2) ∧ Described env u ⟨false, "Block3".toList⟩ (I.blkCls 3) := by
  have hs := fun n hn => h.special (n := n) hn
  obtain ⟨rfl, _, hf⟩ := h.files
  have hy := fun x hx => (hf.sys x hx).described.1
  have hb : ∀ i n, blockName i = n → n ∈ specials → Described env u ⟨false, n⟩ (first.named (blockName i)) := fun i n he hn => he ▸ hs _ (he ▸ hn)
  exact ⟨hy ("Nil".toList, 5) (by decide), hs _ (by decide), hs _ (by decide), hy ("Integer".toList, 15) (by decide), hy ("Symbol".toList, 11) (by decide), hy ("Double".toList, 21) (by decide),
    hy ("String".toList, 19) (by decide), hy ("Array".toList, 9) (by decide), hb 1 _ (by decide +kernel) (by decide), hb 2 _ (by decide +kernel) (by decide), hb 3 _ (by decide +kernel) (by decide)⟩

/-! ## Messages -/

variable {prim : Name → Name → Prim} {blkArgs : Nat → Nat} {catches : Nat → Bool} {clsObj : Cid → Nat} {F : Type} {p : Platform} {fo : Floats F}

theorem image_table {c : Cid} {sel : Name} : (u.image first s prim blkArgs catches clsObj).table c sel =
    ((u.at c).method sel).map fun e => match e.kind with | .code b => .inl b | _ => .inr (prim ((u.at c).name.getD []) sel) := rfl

theorem image_none {c : Cid} {sel : Name} (h : (u.at c).method sel = none) : ((u.image first s prim blkArgs catches clsObj).prog p fo).table c sel = none := by
  show Option.map _ ((u.image first s prim blkArgs catches clsObj).table c sel) = _
  rw [image_table, h]
  rfl

/-- What the running program finds. -/
def found (prim : Name → Name → Prim) (sel : Name) (d : Desc) : Kind → Nat ⊕ Prim
  | .code b => .inl b
  | _ => .inr (prim d.full sel)

theorem image_some {c : Cid} {sel : Name} {d : Desc} {k : Kind} (hd : Described env u d c) (h : (u.at c).method sel = some ⟨sel, k, c⟩) :
    (u.image first s prim blkArgs catches clsObj).table c sel = some (found prim sel d k) := by
  rw [image_table, h, hd.name]
  cases k <;> rfl

/-- C72: the lookup of the running program, for the classes that files describe.  Files say one thing about a message, and this is what is found: `Nearest` and `Nowhere` are those of C68. -/
theorem C72_lookup {d : Desc} {c : Cid} (hd : Described env u d c) (sel : Name) :
    let G := (u.image first s prim blkArgs catches clsObj).prog p fo
    (∃ r, Says env sel d r ∧ ∀ r', Says env sel d r' → r' = r) ∧
    (∀ dh k, Says env sel d (some (dh, k)) → ∃ h, Described env u dh h ∧ Nearest G (G.chain c) sel h (Mach.entry (found prim sel dh k))) ∧
    (Says env sel d none → Nowhere G (G.chain c) sel) := by
  rcases hd.says sel with ⟨dh, k, h, before, after, h1, h2, h3, h4, h5⟩ | ⟨h1, h2⟩
  · refine ⟨⟨_, h1, fun r' h' => h'.unique h1⟩, fun dh' k' h' => ?_, (fun h' => by cases h1.unique h')⟩
    cases h1.unique h'
    refine ⟨h, h2, before, after, h3, fun x hx => image_none (h4 x hx), ?_⟩
    show Option.map _ ((u.image first s prim blkArgs catches clsObj).table h sel) = _
    rw [image_some h2 h5]
    rfl
  · exact ⟨⟨_, h1, fun r' h' => h'.unique h1⟩, (fun dh' k' h' => by cases h1.unique h'), fun _ x hx => image_none (h2 x hx)⟩

variable {b : Behaviour Nat (St (Data F) Printed) Esc} {K : Incs (Data F) Printed}

/-- C72: a message to an instance of a class (or to a class, then `d` is its class): if the files say that the nearest class with a method has one with the body `i`, then this body is run, with the
receiver and the arguments, as a method of that class. -/
theorem C72_send {d dh : Desc} {c : Cid} (hd : Described env u d c) {sel : Name} {i : Nat} (hs : Says env sel d (some (dh, .code i))) :
    let G := (u.image first s prim blkArgs catches clsObj).prog p fo
    ∃ h, Described env u dh h ∧ ∀ (w : St (Data F) Printed) (rcvr : Val) (args : List Val), G.classOf w.sh rcvr = some c → ∀ (r : Res Esc) (w' : St (Data F) Printed),
      G.world K b (.send sel (rcvr :: args)) w r w' ↔ Runs (b.meth i) (rcvr :: args) none h (catches i) w r w' := by
  obtain ⟨h, hh, hn⟩ := (C72_lookup (first := first) (s := s) (prim := prim) (blkArgs := blkArgs) (catches := catches) (clsObj := clsObj) (p := p) (fo := fo) hd sel).2.1 dh _ hs
  exact ⟨h, hh, fun w rcvr args hc r w' => Mach.C68_send w rcvr args sel c h i hc hn r w'⟩

/-- C72: if it has a primitive, instances answer the message by the primitive that the VM has for the class of that name; C71 says what that does. -/
theorem C72_primitive {d dh : Desc} {c : Cid} (hd : Described env u d c) {sel : String} (hs : Says env sel.toList d (some (dh, .vm))) :
    (u.image first s prim blkArgs catches clsObj).Has c sel (prim dh.full sel.toList) := by
  rcases hd.says sel.toList with ⟨dh', k, h, before, after, h1, h2, h3, h4, h5⟩ | ⟨h1, _⟩
  · cases h1.unique hs
    refine ⟨h, ?_⟩
    show List.findSome? _ (u.chain c) = _
    rw [h3, List.findSome?_append, List.findSome?_eq_none_iff.2 fun x hx => by rw [image_table, h4 x hx]; rfl, Option.none_or, List.findSome?_cons, image_some h2 h5]
    rfl
  · cases h1.unique hs

/-- C72: if no file has it, `doesNotUnderstand:arguments:` is run, with the selector and the arguments. -/
theorem C72_not_understood {d dh : Desc} {c : Cid} (hd : Described env u d c) {sel : Name} {i : Nat} (hs : Says env sel d none)
    (hd' : Says env "doesNotUnderstand:arguments:".toList d (some (dh, .code i))) :
    let G := (u.image first s prim blkArgs catches clsObj).prog p fo
    ∃ h, Described env u dh h ∧ ∀ (w : St (Data F) Printed) (rcvr : Val) (args : List Val), G.classOf w.sh rcvr = some c → ∀ (r : Res Esc) (w' : St (Data F) Printed),
      G.world K b (.send sel (rcvr :: args)) w r w' ↔ ∃ a w1, w1.frames = w.frames ∧ w1.cur = w.cur ∧ w1.sh.globals = w.sh.globals ∧ w1.sh.ext = w.sh.ext ∧ w.sh.objs[a]? = none ∧
        w1.sh.objs[a]? = some (.data s.array (.arr args)) ∧ (∀ a', a' ≠ a → w1.sh.objs[a']? = w.sh.objs[a']?) ∧ a = w.sh.objs.length ∧
        Runs (b.meth i) [rcvr, .sym sel, .obj a] none h (catches i) w1 r w' := by
  have hl := fun sel => C72_lookup (first := first) (s := s) (prim := prim) (blkArgs := blkArgs) (catches := catches) (clsObj := clsObj) (p := p) (fo := fo) hd sel
  obtain ⟨h, hh, hn⟩ := (hl _).2.1 dh _ hd'
  exact ⟨h, hh, fun w rcvr args hc r w' => Mach.C68_not_understood w rcvr args sel c h i hc ((hl sel).2.2 hs) hn r w'⟩

/-- C72: a message to `super` in a method of the class `d` looks in the file of its superclass first, whatever the class of the receiver is. -/
theorem C72_super {d d' dh : Desc} {c : Cid} (hd : Described env u d c) (ha : above env d = some d') {sel : Name} {i : Nat} (hs : Says env sel d' (some (dh, .code i))) :
    let G := (u.image first s prim blkArgs catches clsObj).prog p fo
    ∃ h, Described env u dh h ∧ ∀ (w : St (Data F) Printed) (f : Frame) (rcvr : Val) (args : List Val), w.frames[w.cur]? = some f → f.holder = c → ∀ (r : Res Esc) (w' : St (Data F) Printed),
      G.world K b (.superSend sel (rcvr :: args)) w r w' ↔ Runs (b.meth i) (rcvr :: args) none h (catches i) w r w' := by
  have hc := hd.chain
  cases hd with
  | top _ _ _ _ _ _ _ ha' => rw [ha] at ha'; cases ha'
  | sub _ d'' _ sc _ _ _ _ hsup ha' hd' =>
    cases Option.some.inj (ha.symm.trans ha')
    rw [hsup] at hc
    obtain ⟨h, hh, hn⟩ := (C72_lookup (first := first) (s := s) (prim := prim) (blkArgs := blkArgs) (catches := catches) (clsObj := clsObj) (p := p) (fo := fo) hd' sel).2.1 dh _ hs
    exact ⟨h, hh, fun w f rcvr args hf hk r w' => Mach.C68_super w f c (u.chain sc) rcvr args sel h i hf hk hc hn r w'⟩

/-! ## The primitives of numbers and booleans -/

/-- The table of names is that of the VM: these primitives are among those that the VM installs under these names, but for the classes of blocks, which have theirs from the start. -/
theorem named_known : ∀ c ∈ namedPrims, ∀ x ∈ c.2, (∃ v ∈ blocks, c.1.toList = v.1 ∧ x.1.toList = v.2) ∨ x.1.toList ∈ ((vmKnown .bc c.1.toList).getD ([], [])).1 ∨
    ∃ n ∈ ["Array", "Integer", "Double"], c.1 = n ++ " class" ∧ x.1.toList ∈ ((vmKnown .bc n.toList).getD ([], [])).2 := by decide +kernel

/-- Classes with primitives of the VM that are entered in any case. -/
theorem declares_vm {n sel : Name} (hf : Filed env n) (hn : (List.lookup n ownClasses).isSome || n == "True".toList || n == "False".toList) (hb : List.lookup n blocks = none)
    (hs : sel ∈ ((env.known n).getD ([], [])).1) : declares env ⟨false, n⟩ sel = some .vm := by
  obtain ⟨q, hq⟩ := hf
  unfold declares
  dsimp only
  rw [hq]
  dsimp only
  unfold vmOf
  rw [hb]
  dsimp only
  rw [if_pos (by rw [Bool.or_assoc, hn]; rfl)]
  exact if_pos hs

theorem Described.filed {u : U} {d : Desc} {c : Cid} (h : Described env u d c) : Filed env d.name := by cases h <;> assumption

/-- C72: whatever the class files say about `Integer`, `Double`, `True` and `False`, their instances answer the messages of arithmetic and of control by the primitives of the VM.  This is what C66,
C67, C69 and C71 assume of a program. -/
theorem C72_numbers (h : After env P s first u) {e : Inv.Engine} (he : env.known = vmKnown e) (hp : ∀ n sel x, namedPrim n sel = some x → prim n sel = x) :
    (u.image first s prim blkArgs catches clsObj).Numbers ∧ (u.image first s prim blkArgs catches clsObj).Booleans := by
  obtain ⟨_, h1, h2, h3, _, h4, _⟩ := C72_values h prim blkArgs catches clsObj
  have key : ∀ (n : String) (c : Cid) (sel : String) (x : Prim), Described env u ⟨false, n.toList⟩ c →
      ((List.lookup n.toList ownClasses).isSome || n.toList == "True".toList || n.toList == "False".toList) = true → List.lookup n.toList blocks = none →
      sel.toList ∈ ((vmKnown e n.toList).getD ([], [])).1 → namedPrim n.toList sel.toList = some x → (u.image first s prim blkArgs catches clsObj).Has c sel x := by
    intro n c sel x hd hn hb hs hx
    have := C72_primitive (first := first) (s := s) (prim := prim) (blkArgs := blkArgs) (catches := catches) (clsObj := clsObj) hd (.own _ _ (declares_vm hd.filed hn hb (by rw [he]; exact hs)))
    rwa [show Desc.full ⟨false, n.toList⟩ = n.toList from rfl, hp _ _ x hx] at this
  have ki := fun sel x => key "Integer" _ sel x h3 (by decide +kernel) (by decide +kernel)
  have kd := fun sel x => key "Double" _ sel x h4 (by decide +kernel) (by decide +kernel)
  have kt := fun sel x => key "True" _ sel x h1 (by decide +kernel) (by decide +kernel)
  have kf := fun sel x => key "False" _ sel x h2 (by decide +kernel) (by decide +kernel)
  exact ⟨⟨ki "+" _ (by cases e <;> decide +kernel) (by decide +kernel), kd "+" _ (by cases e <;> decide +kernel) (by decide +kernel), ki "-" _ (by cases e <;> decide +kernel) (by decide +kernel),
    kd "-" _ (by cases e <;> decide +kernel) (by decide +kernel)⟩,
    ⟨kt "not" _ (by cases e <;> decide +kernel) (by decide +kernel), kf "not" _ (by cases e <;> decide +kernel) (by decide +kernel), kt "and:" _ (by cases e <;> decide +kernel) (by decide +kernel),
    kf "and:" _ (by cases e <;> decide +kernel) (by decide +kernel), kt "or:" _ (by cases e <;> decide +kernel) (by decide +kernel), kf "or:" _ (by cases e <;> decide +kernel) (by decide +kernel),
    kt "ifTrue:" _ (by cases e <;> decide +kernel) (by decide +kernel), kt "ifFalse:" _ (by cases e <;> decide +kernel) (by decide +kernel), kf "ifFalse:" _ (by cases e <;> decide +kernel) (by decide +kernel),
    kt "ifTrue:ifFalse:" _ (by cases e <;> decide +kernel) (by decide +kernel), kf "ifTrue:ifFalse:" _ (by cases e <;> decide +kernel) (by decide +kernel)⟩⟩

/-- C72: so both interpreters agree on programs whose classes come from files (C66), whatever the files of the library say. -/
theorem C72_interpreters_partial (h : After env P s first u) {e : Inv.Engine} (he : env.known = vmKnown e) (hp : ∀ n sel x, namedPrim n sel = some x → prim n sel = x) (h1 : fo.ofInt 1 = .ok fo.one)
    {q : BC.Compiled2 Nat} {N : Prop} {known : BC.Sel → Bool} {alloc : BC.LitTs → Val} {n : Nat} (hq : q.Ok True (p = .cpython) True False N known alloc n) (ha : Mach.Apart q)
    (hN : N → ∀ c, (u.image first s prim blkArgs catches clsObj).find c Mach.escapedBlock = none) (c : Mach.Call) (w : St (Data F) Printed) (r r' : Res Esc) (w1 w2 : St (Data F) Printed)
    (hr : ((u.image first s prim blkArgs catches clsObj).prog p fo).trees ((u.image first s prim blkArgs catches clsObj).incs p fo) q c w r w1)
    (hr' : ((u.image first s prim blkArgs catches clsObj).prog p fo).bytecode ((u.image first s prim blkArgs catches clsObj).incs p fo) q c w r' w2)
    (hq1 : ∀ e, r = .exc e → ¬ Mach.Quirk e) (hq2 : ∀ e, r' = .exc e → ¬ Mach.Quirk e) : r = r' ∧ w1 = w2 :=
  Mach.C66_primitives_partial (C72_numbers h he hp).1 h1 hq ha hN c w r r' w1 w2 hr hr' hq1 hq2

end

/-! ## Examples -/

namespace Demo

theorem lookup_mem {n : Name} {t : Text} : ∀ {fs : List (Name × Text)}, List.lookup n fs = some t → (n, t) ∈ fs
  | [], h => nomatch h
  | (m, t') :: fs, h => by
    rw [List.lookup_cons] at h
    split at h
    · rename_i he
      cases h
      rw [eq_of_beq he]
      exact List.mem_cons_self
    · exact List.mem_cons_of_mem _ (lookup_mem h)

theorem source_files {n : Name} {t : Text} (h : source env n = some t) : (n, t) ∈ files := by
  have h' : List.findSome? (fun p => if p = 1 then List.lookup n files else none) [0, 1] = some t := h
  refine lookup_mem ?_
  generalize files = fs at h' ⊢
  cases hl : List.lookup n fs with
  | none => simp [hl] at h'
  | some t' => simpa [hl] using h'

theorem plain : NoSpecial env := fun n t m h hm => by
  have : ∀ x ∈ files, ∀ m ∈ x.2.super, m ∉ specials := by decide +kernel
  exact this _ (source_files h) m hm

theorem after : After env (fun _ => False) sys0 started loaded :=
  ⟨rfl, plain, ⟨5, starts⟩, .load started started 5 "Point3D".toList (.stay _)⟩

theorem clean (n : Name) : Clean env (fun _ => False) n := fun _ _ h => h

/-- What the files say: `x` is that of `Point`, the last one; `length` is the primitive of `Point3D`, since there is one; `asString` that of `Object`; there is no `y`; and `Point3D origin` is a primitive. -/
theorem says : Says env "x".toList ⟨false, "Point3D".toList⟩ (some (⟨false, "Point".toList⟩, .code 3)) ∧ Says env "length".toList ⟨false, "Point3D".toList⟩ (some (⟨false, "Point3D".toList⟩, .vm)) ∧
    Says env "asString".toList ⟨false, "Point3D".toList⟩ (some (⟨false, "Object".toList⟩, .code 7)) ∧ Says env "y".toList ⟨false, "Point3D".toList⟩ none ∧
    Says env "origin".toList ⟨true, "Point3D".toList⟩ (some (⟨true, "Point3D".toList⟩, .vm)) ∧ Says env "asString".toList ⟨true, "Point3D".toList⟩ (some (⟨false, "Object".toList⟩, .code 7)) := by
  have h1 : above env ⟨false, "Point3D".toList⟩ = some ⟨false, "Point".toList⟩ := by decide +kernel
  have h2 : above env ⟨false, "Point".toList⟩ = some ⟨false, "Object".toList⟩ := by decide +kernel
  have h3 : above env ⟨true, "Point3D".toList⟩ = some ⟨true, "Point".toList⟩ := by decide +kernel
  have h4 : above env ⟨true, "Point".toList⟩ = some ⟨true, "Object".toList⟩ := by decide +kernel
  have h5 : above env ⟨true, "Object".toList⟩ = some ⟨false, "Class".toList⟩ := by decide +kernel
  have h6 : above env ⟨false, "Class".toList⟩ = some ⟨false, "Object".toList⟩ := by decide +kernel
  exact ⟨.up _ _ _ (by decide +kernel) h1 (.own _ _ (by decide +kernel)), .own _ _ (by decide +kernel), .up _ _ _ (by decide +kernel) h1 (.up _ _ _ (by decide +kernel) h2 (.own _ _ (by decide +kernel))),
    .up _ _ _ (by decide +kernel) h1 (.up _ _ _ (by decide +kernel) h2 (.none _ (by decide +kernel) (by decide +kernel))), .own _ _ (by decide +kernel),
    .up _ _ _ (by decide +kernel) h3 (.up _ _ _ (by decide +kernel) h4 (.up _ _ _ (by decide +kernel) h5 (.up _ _ _ (by decide +kernel) h6 (.own _ _ (by decide +kernel)))))⟩

theorem point3D : Described env loaded ⟨false, "Point3D".toList⟩ 39 ∧ ∃ m, (loaded.at 39).cls = some m ∧ Described env loaded ⟨true, "Point3D".toList⟩ m :=
  C72_class after (by decide +kernel) (clean _)

/-- The same, from what loading answers. -/
example : After env (fun _ => False) sys0 started loaded ∧ Described env loaded ⟨false, "Point3D".toList⟩ 39 ∧ ∃ m, (loaded.at 39).cls = some m ∧ Described env loaded ⟨true, "Point3D".toList⟩ m :=
  C72_loaded ⟨rfl, plain, ⟨5, starts⟩, .stay _⟩ loads (clean _)

/-- The classes of the loaded system, with methods that do what `b` says. -/
def image : Mach.Image Nat := loaded.image started sys0 (fun n sel => (namedPrim n sel).getD .halt) (fun _ => 1) (fun _ => true) fun c => c

/-- The chain of `Point3D` is itself, `Point` and `Object`. -/
example : image.chain 39 = [39, 37, 3] := by decide +kernel

/-- Sending `x` to a `Point3D` runs the body 3. -/
example {F : Type} (p : Platform) (fo : Floats F) (b : Behaviour Nat (St (Data F) Printed) Esc) (K : Incs (Data F) Printed) (w : St (Data F) Printed) (a : Nat)
    (ha : w.sh.objs[a]? = some (.inst 39 [.int 1, .int 2, .int 3])) (r : Res Esc) (w' : St (Data F) Printed) :
    ∃ h, Described env loaded ⟨false, "Point".toList⟩ h ∧ ((image.prog p fo).world K b (.send "x".toList [.obj a]) w r w' ↔ Runs (b.meth 3) [.obj a] none h true w r w') := by
  obtain ⟨h, hh, hr⟩ := C72_send (first := started) (s := sys0) (prim := fun n sel => (namedPrim n sel).getD .halt) (blkArgs := fun _ => 1) (catches := fun _ => true) (clsObj := fun c => c) (p := p) (fo := fo)
    (K := K) (b := b) point3D.1 says.1
  exact ⟨h, hh, hr w (.obj a) [] (by simp only [Mach.Prog.classOf, ha]) r w'⟩

/-- `length` is a primitive. -/
example : (loaded.image started sys0 (fun _ _ => .strLength) (fun _ => 1) (fun _ => true) fun c => c).Has 39 "length" .strLength := C72_primitive point3D.1 says.2.1

/-- `super x` in a method of `Point3D` runs that of `Point`, even if the receiver is an instance of another class. -/
example {F : Type} (p : Platform) (fo : Floats F) (b : Behaviour Nat (St (Data F) Printed) Esc) (K : Incs (Data F) Printed) (w : St (Data F) Printed) (f : Frame)
    (hf : w.frames[w.cur]? = some f) (hh : f.holder = 39) (v : Val) (r : Res Esc) (w' : St (Data F) Printed) :
    ∃ h, Described env loaded ⟨false, "Point".toList⟩ h ∧ ((image.prog p fo).world K b (.superSend "x".toList [v]) w r w' ↔ Runs (b.meth 3) [v] none h true w r w') := by
  obtain ⟨h, hd, hr⟩ := C72_super (first := started) (s := sys0) (prim := fun n sel => (namedPrim n sel).getD .halt) (blkArgs := fun _ => 1) (catches := fun _ => true) (clsObj := fun c => c) (p := p) (fo := fo)
    (K := K) (b := b) point3D.1 (d' := ⟨false, "Point".toList⟩) (by decide +kernel) (sel := "x".toList) (i := 3) (dh := ⟨false, "Point".toList⟩) (.own _ _ (by decide +kernel))
  exact ⟨h, hd, hr w f v [] hf hh r w'⟩

/-- The same files, but `Object` has a method for messages that are not understood. -/
def dnuEnv : Env := { env with files := fun p n => if n = "Object".toList then some (file "Object" (some "nil") [] [("doesNotUnderstand:arguments:", some 8)]) else env.files p n }

theorem dnuStarts : boot dnuEnv 5 ⟨[], []⟩ = (.ok sys0, (boot dnuEnv 5 ⟨[], []⟩).2) := gives_eq (by decide +kernel)

theorem dnuPlain : NoSpecial dnuEnv := fun n t m h hm => by
  by_cases hn : n = "Object".toList
  · have h' : List.findSome? (fun p => if n = "Object".toList then some (file "Object" (some "nil") [] [("doesNotUnderstand:arguments:", some 8)]) else env.files p n) [0, 1] = some t := h
    simp only [if_pos hn, List.findSome?_cons] at h'
    cases h'
    have h0 : (file "Object" (some "nil") [] [("doesNotUnderstand:arguments:", some 8)]).super = none := by decide +kernel
    rw [h0] at hm
    cases hm
  · have h' : List.findSome? (fun p => if n = "Object".toList then some (file "Object" (some "nil") [] [("doesNotUnderstand:arguments:", some 8)]) else env.files p n) [0, 1] = some t := h
    simp only [if_neg hn] at h'
    exact plain n t m h' hm

/-- `5 foo` runs that method. -/
example {F : Type} (p : Platform) (fo : Floats F) (b : Behaviour Nat (St (Data F) Printed) Esc) (K : Incs (Data F) Printed) (w : St (Data F) Printed) (r : Res Esc) (w' : St (Data F) Printed) :
    let u := (boot dnuEnv 5 ⟨[], []⟩).2
    let I := u.image u sys0 (fun n sel => (namedPrim n sel).getD .halt) (fun _ => 1) (fun _ => true) fun c => c
    ∃ h, Described dnuEnv u ⟨false, "Object".toList⟩ h ∧ ((I.prog p fo).world K b (.send "foo".toList [.int 5]) w r w' ↔ ∃ a w1, w1.frames = w.frames ∧ w1.cur = w.cur ∧
      w1.sh.globals = w.sh.globals ∧ w1.sh.ext = w.sh.ext ∧ w.sh.objs[a]? = none ∧ w1.sh.objs[a]? = some (.data 9 (.arr [])) ∧ (∀ a', a' ≠ a → w1.sh.objs[a']? = w.sh.objs[a']?) ∧ a = w.sh.objs.length ∧
      Runs (b.meth 8) [.int 5, .sym "foo".toList, .obj a] none h true w1 r w') := by
  intro u I
  have ha : After dnuEnv (fun _ => False) sys0 u u := ⟨rfl, dnuPlain, ⟨5, dnuStarts⟩, .stay _⟩
  have hi := (C72_values ha (fun n sel => (namedPrim n sel).getD .halt) (fun _ => 1) (fun _ => true) fun c => c).2.2.2.1
  obtain ⟨h, hd, hr⟩ := C72_not_understood (first := u) (s := sys0) (prim := fun n sel => (namedPrim n sel).getD .halt) (blkArgs := fun _ => 1) (catches := fun _ => true) (clsObj := fun c => c) (p := p) (fo := fo)
    (K := K) (b := b) hi (sel := "foo".toList) (i := 8) (dh := ⟨false, "Object".toList⟩)
    (.up _ ⟨false, "Object".toList⟩ _ (by decide +kernel) (by decide +kernel) (.none _ (by decide +kernel) (by decide +kernel)))
    (.up _ ⟨false, "Object".toList⟩ _ (by decide +kernel) (by decide +kernel) (.own _ _ (by decide +kernel)))
  exact ⟨h, hd, hr w (.int 5) [] rfl r w'⟩

/-- With the table of the VM. -/
def vmEnv : Env := { env with known := vmKnown .bc }

theorem vmStarts : boot vmEnv 5 ⟨[], []⟩ = (.ok sys0, (boot vmEnv 5 ⟨[], []⟩).2) := gives_eq (by decide +kernel)

theorem vmAfter : After vmEnv (fun _ => False) sys0 (boot vmEnv 5 ⟨[], []⟩).2 (boot vmEnv 5 ⟨[], []⟩).2 := ⟨rfl, plain, ⟨5, vmStarts⟩, .stay _⟩

example : ((boot vmEnv 5 ⟨[], []⟩).2.image (boot vmEnv 5 ⟨[], []⟩).2 sys0 (fun n sel => (namedPrim n sel).getD .halt) (fun _ => 1) (fun _ => true) fun c => c).Numbers ∧
    ((boot vmEnv 5 ⟨[], []⟩).2.image (boot vmEnv 5 ⟨[], []⟩).2 sys0 (fun n sel => (namedPrim n sel).getD .halt) (fun _ => 1) (fun _ => true) fun c => c).Booleans :=
  C72_numbers vmAfter rfl fun n sel x h => by rw [h]; rfl

/-- The same files, but `System` is a subclass of `Block1`. -/
def blockEnv : Env := { env with files := fun p n => if n = "System".toList then some (file "System" (some "Block1") [] []) else env.files p n }

end Demo

/-- C72 is violated by a class that is loaded during the start and whose superclass is a class of blocks: there are two classes with the name `Block1` then, and the superclass is one whose instances do not understand
`value`. -/
theorem C72_violated : ∃ u c c', boot Demo.blockEnv 5 ⟨[], []⟩ = (.ok sys0, u) ∧ (u.at (u.named "System".toList)).sup = some c ∧ (u.at c).name = some "Block1".toList ∧
    List.lookup "Block1".toList u.globals = some (.cls c') ∧ c ≠ c' ∧ (u.at c).method "value".toList = none ∧ (u.at c').method "value".toList = some ⟨"value".toList, .vm, c'⟩ :=
  ⟨(boot Demo.blockEnv 5 ⟨[], []⟩).2, ((boot Demo.blockEnv 5 ⟨[], []⟩).2.at ((boot Demo.blockEnv 5 ⟨[], []⟩).2.named "System".toList)).sup.getD 0, (boot Demo.blockEnv 5 ⟨[], []⟩).2.named "Block1".toList,
    Demo.gives_eq (by decide +kernel), by decide +kernel, by decide +kernel, by decide +kernel, by decide +kernel, by decide +kernel, by decide +kernel⟩

end PySOM.Boot
