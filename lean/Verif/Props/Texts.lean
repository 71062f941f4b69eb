import Verif.Lemmas.Texts
import Verif.Props.ClassFiles
/-!
# C73: a program does what the texts of its class files say

C24, C58 and C62 say how texts are read, C72 which methods the classes have that were made from the files, C69 that running compiled methods is evaluating their source.  Here these are put together: a
program is given by the texts in the directories of the class path.  Full property: a message to an instance of a class evaluates the body that is written for it in the text of the nearest class that has one, in which names of
fields stand for the fields of the object, those of superclasses first; both interpreters give its value.

Missing: what C64 and C69 leave out (`fairL`: literal arrays, for example), files that are changed while the program runs, and classes of the VM with fields (`NoFields`; see `C73_violated`).
-/
set_option autoImplicit false
namespace PySOM.Boot
open PySOM.Parse (ClassText Method)
open PySOM.Lex (Classes)
open PySOM.Elab (IsClass IsClassAst Method2 Numbers Good)
open PySOM.Mach (Runs Prim Data Printed Floats St Esc Incs)
open PySOM.BC (Sel LitTs Val Res Behaviour SMethod Compiled2 srcBehaviour)

section
variable {env : Env} {P : Name → Prop} {s : Sys} {first u : U}

/-! ## Fields -/

/-- C73: a class has the fields that the files say, those of its superclasses first, and `new` makes instances with as many. -/
theorem C73_fields (hF : NoFields env) {d : Desc} {c : Cid} (hd : Described env u d c) (prim : Name → Name → Prim) (blkArgs : Nat → Nat) (catches : Nat → Bool) (clsObj : Cid → Nat) :
    ∃ fs, (∀ fs', Fields env d fs' ↔ fs' = fs) ∧ (u.at c).fields = some fs ∧ (u.image first s prim blkArgs catches clsObj).nflds c = fs.length := by
  have : NoFields env → ∃ fs, (u.at c).fields = some fs ∧ Fields env d fs := by cases hd <;> assumption
  obtain ⟨fs, h1, h2⟩ := this hF
  exact ⟨fs, fun fs' => ⟨fun h => h.unique h2, fun h => h ▸ h2⟩, h1, by simp only [U.image, h1, Option.getD_some]⟩

/-- C73: the fields of the class that has the method are the first ones of the class of the receiver, so that the field with number `k` of the one is that of the other. -/
theorem C73_inherited {sel : Name} {d dh : Desc} {k : Kind} (h : Says env sel d (some (dh, k))) {fs fs' : List Name} (hf : Fields env d fs) (hf' : Fields env dh fs') :
    ∀ (j : Nat) (x : Name), fs'[j]? = some x → fs[j]? = some x := by
  obtain ⟨fs1, h1, t, rfl⟩ := h.fields rfl hf
  intro j x hx
  rw [hf'.unique h1] at hx
  obtain ⟨hl, _⟩ := List.getElem?_eq_some_iff.1 hx
  rw [List.getElem?_append_left hl]
  exact hx

/-! ## Methods -/

variable {K : Classes} {M : Numbers} {D N : Prop} {known : Sel → Bool} {alloc : LitTs → Val} {k : Nat} {texts : Nat → Name → Option (List Char)} {num : Nat → Name → Bool → Nat → Nat} {src2 : Nat → SMethod}
  {q : Compiled2 Nat}

/-- C73: the body that is run for a message is the last one for the selector in the text of the class that the files say, compiled for both interpreters with the fields of that class. -/
theorem C73_method (hr : Reads K texts num env) (hb : Bodies K M D N known alloc k texts num env src2 q) {d dh : Desc} {sel : Name} {i : Nat} (hs : Says env sel d (some (dh, .code i)))
    {fs : List Name} (hf : Fields env dh fs) :
    ∃ p t cls j m, TextOf texts dh.name env.classpath p t ∧ IsClass K t cls ∧ IsClassAst K t cls ∧ LastAt (methodsOf dh.onClass cls) sel j m ∧ m.impl.isSome = true ∧
      Method2 K M True D True False N known alloc k t fs m (q.src i) (src2 i) (q.code i) (q.tree i) := by
  have hdec : declares env dh sel = some (.code i) := by
    generalize hx : some (dh, Kind.code i) = x at hs
    induction hs with
    | own d k h => cases hx; exact h
    | up d d' r h ha _ ih => exact ih hx
    | none d h ha => cases hx
  unfold declares at hdec
  cases hsrc : source env dh.name with
  | none => rw [hsrc] at hdec; cases hdec
  | some x =>
    rw [hsrc, Option.bind_some] at hdec
    cases hrest : x.rest with
    | none => rw [hrest] at hdec; cases hdec
    | some y =>
      rw [hrest] at hdec
      dsimp only at hdec
      obtain ⟨p, t, h1, h2, h3⟩ := source_text hr hsrc
      obtain ⟨x', h4, h5⟩ := hr.some p dh.name t h2
      cases Option.some.inj (h3.symm.trans h4)
      obtain ⟨cls, hc1, hc2, rfl⟩ := h5 y hrest
      cases hrest
      have hlast : lastMeth (sideOf (num p dh.name dh.onClass) (if dh.onClass then (classSide cls).1 else cls.fields) (methodsOf dh.onClass cls)).meths sel = some (some i) := by
        unfold entryOf at hdec
        split at hdec
        · cases hdec
        · obtain ⟨b, hb1, hb2⟩ := Option.map_eq_some_iff.1 hdec
          cases b with
          | none => cases hb2
          | some b =>
            cases hb2
            rw [← hb1]
            unfold methodsOf pick classSide
            cases dh.onClass with
            | false => rfl
            | true => cases cls.cls <;> rfl
      obtain ⟨j, m, hj, hi⟩ := lastMeth_side hlast
      cases him : m.impl with
      | none => rw [him] at hi; cases hi
      | some im =>
        rw [him] at hi
        cases hi
        exact ⟨p, t, cls, j, m, h1, hc1, hc2, hj, by rw [him]; rfl, hb.here p dh.name t cls dh.onClass j m fs h1 hc1 h3 hj.1 (by rw [him]; rfl) hf⟩

/-- C73: the name, the superclass and the fields of a class that the VM does not make itself are those in its text; those of the superclass come first. -/
theorem C73_class (hr : Reads K texts num env) {n : Name} (hn : List.lookup n ownClasses = none) (hf : Filed env n) :
    ∃ p t cls x, TextOf texts n env.classpath p t ∧ IsClass K t cls ∧ IsClassAst K t cls ∧ source env n = some x ∧ x.head = some (cls.name, cls.super) ∧ superOf env n = superIn cls ∧
      ∀ (b : Bool) (fs : List Name), Fields env ⟨b, n⟩ fs ↔ ∃ s fs0, superIn cls = some s ∧ Fields env ⟨b, s⟩ fs0 ∧ fs = fs0 ++ fieldsIn b cls := by
  obtain ⟨y, hy⟩ := hf
  cases hsrc : source env n with
  | none => rw [hsrc] at hy; cases hy
  | some x =>
    have hrest : x.rest = some y := by rw [hsrc] at hy; exact hy
    obtain ⟨p, t, h1, h2, h3⟩ := source_text hr hsrc
    obtain ⟨x', h4, h5⟩ := hr.some p n t h2
    cases Option.some.inj (h3.symm.trans h4)
    obtain ⟨cls, hc1, hc2, rfl⟩ := h5 y hrest
    have hsup : superOf env n = superIn cls := by
      unfold superOf superIn
      rw [hn, hsrc]
      show (if cls.super.getD symObject = symNil then none else some (cls.super.getD symObject)) = _
      cases cls.super with
      | none => rfl
      | some s => rfl
    have hpick : ∀ b, (pick b y).fields = fieldsIn b cls := by
      intro b
      cases hrest
      cases b with
      | false => rfl
      | true =>
        show (classSide cls).1 = _
        unfold classSide fieldsIn
        cases cls.cls <;> rfl
    refine ⟨p, t, cls, _, h1, hc1, hc2, rfl, rfl, hsup, fun b fs => ⟨fun h => ?_, ?_⟩⟩
    · cases h with
      | own _ h => rw [show List.lookup n ownClasses = none from hn] at h; cases h
      | sub _ s p' fs0 _ hs hp h' =>
        cases Option.some.inj (hy.symm.trans hp)
        exact ⟨s, fs0, hsup.symm.trans hs, h', by rw [hpick]⟩
    · rintro ⟨s, fs0, hs, h', rfl⟩
      rw [← hpick]
      exact .sub ⟨b, n⟩ s y fs0 hn (hsup.trans hs) hy h'

/-- The conditions of C66 and C69 on programs are met. -/
theorem Bodies.ok (hK : Good K) (hb : Bodies K M D N known alloc k texts num env src2 q) : q.Ok True D True False N known alloc k ∧ ∀ i, (q.src i).body.bound [(q.src i).env] := by
  have key : ∀ i, (q.src i).Wf ∧ (q.src i).env.Nodup ∧ (q.src i).body.fair True D True False N false ∧ (q.src i).body.setter ∧ (∃ g, (q.src i).compile known k = .ok g ∧ BC.assemble g = .ok (q.code i)) ∧
      (q.src i).ast known alloc = .ok (q.tree i) ∧ (q.src i).body.bound [(q.src i).env] := fun i => by
    obtain ⟨t, fs, m, h⟩ := hb.each i
    obtain ⟨e, h1, h2, h3, h4⟩ := h.ok hK
    obtain ⟨ls, ts, ex, _, _, _, _, _, n, o, bits, s1, s2, h5, _⟩ := h.parts
    exact ⟨h1, h2, h3, h4, h.code, by rw [e]; exact h.tree, Elab.methodAt_bound h5⟩
  exact ⟨⟨fun i => (key i).1, fun i => (key i).2.1, fun i => (key i).2.2.1, fun i => (key i).2.2.2.1, fun i => (key i).2.2.2.2.1, fun i => (key i).2.2.2.2.2.1⟩, fun i => (key i).2.2.2.2.2.2⟩

/-! ## Running -/

variable {prim : Name → Name → Prim} {blkArgs : Nat → Nat} {catches : Nat → Bool} {clsObj : Cid → Nat} {F : Type} {p : Platform} {fo : Floats F}

/-- C73: according to the source, a message to an instance of a class evaluates the body of the method (see `C73_method`), in a new frame with the receiver and the arguments. -/
theorem C73_source {d dh : Desc} {c : Cid} (hd : Described env u d c) {sel : Name} {i : Nat} (hs : Says env sel d (some (dh, .code i))) (Kx : Incs (Data F) Printed) (src : Nat → SMethod) :
    let G := (u.image first s prim blkArgs catches clsObj).prog p fo
    ∃ h, Described env u dh h ∧ ∀ (w : St (Data F) Printed) (rcvr : Val) (args : List Val), G.classOf w.sh rcvr = some c → ∀ (r : Res Esc) (w' : St (Data F) Printed),
      G.source D Kx known src (.send sel (rcvr :: args)) w r w' ↔
        ∃ j, Runs ((src i).eval known (G.ideal D Kx (srcBehaviour known src (G.language D Kx) Esc.err j)) Esc.err) (rcvr :: args) none h (catches i) w r w' := by
  obtain ⟨h, hh, hn⟩ := (C72_lookup (first := first) (s := s) (prim := prim) (blkArgs := blkArgs) (catches := catches) (clsObj := clsObj) (p := p) (fo := fo) hd sel).2.1 dh _ hs
  refine ⟨h, hh, fun w rcvr args hc r w' => ?_⟩
  have key := fun b => Mach.C68_send (K := Kx) (b := b) w rcvr args sel c h i hc hn r w'
  refine ⟨fun ⟨j, hj⟩ => ?_, fun ⟨j, hj⟩ => ⟨j + 1, (key _).2 hj⟩⟩
  have h1 := (key _).1 hj
  cases j with
  | zero => obtain ⟨_, _, h2, _⟩ := h1; exact absurd h2 id
  | succ j => exact ⟨j, h1⟩

/-- C73 (partly): a message to an instance of a class gives the value of the body that the texts have for it: in the AST interpreter always, in the bytecode interpreter unless the evaluation of the source ends with one of
the three errors for values of an unexpected kind.  Missing: see above. -/
theorem C73_value_partial (h : After env P s first u) {e : Inv.Engine} (he : env.known = vmKnown e) (hp : ∀ n sel x, namedPrim n sel = some x → prim n sel = x) (h1 : fo.ofInt 1 = .ok fo.one) (hK : Good K)
    (hb : Bodies K M (p = .cpython) N known alloc k texts num env src2 q) (hN : N → ∀ c, (u.image first s prim blkArgs catches clsObj).find c Mach.escapedBlock = none)
    {d dh : Desc} {c : Cid} (hd : Described env u d c) {sel : Name} {i : Nat} (hs : Says env sel d (some (dh, .code i))) :
    let I := u.image first s prim blkArgs catches clsObj
    let G := I.prog p fo
    let eval := fun j => (q.src i).eval known (G.ideal (p = .cpython) (I.incs p fo) (srcBehaviour known q.src (G.language (p = .cpython) (I.incs p fo)) Esc.err j)) Esc.err
    ∃ hc, Described env u dh hc ∧ ∀ (w : St (Data F) Printed) (rcvr : Val) (args : List Val), G.classOf w.sh rcvr = some c → ∀ (v : Val) (w' : St (Data F) Printed),
      (G.trees (I.incs p fo) q (.send sel (rcvr :: args)) w (.val v) w' → ∃ j, Runs (eval j) (rcvr :: args) none hc (catches i) w (.val v) w') ∧
      (G.bytecode (I.incs p fo) q (.send sel (rcvr :: args)) w (.val v) w' → (∃ j, Runs (eval j) (rcvr :: args) none hc (catches i) w (.val v) w') ∨
        ∃ x w2 j, Mach.Quirk x ∧ Runs (eval j) (rcvr :: args) none hc (catches i) w (.exc x) w2) := by
  obtain ⟨hok, hbd⟩ := hb.ok hK
  obtain ⟨hc, hh, hsrc⟩ := C73_source (first := first) (s := s) (D := p = .cpython) (known := known) (prim := prim) (blkArgs := blkArgs) (catches := catches) (clsObj := clsObj) (p := p) (fo := fo) hd hs
    ((u.image first s prim blkArgs catches clsObj).incs p fo) q.src
  refine ⟨hc, hh, fun w rcvr args hcl v w' => ?_⟩
  obtain ⟨h2, h3⟩ := Mach.C69_primitives_partial (C72_numbers (blkArgs := blkArgs) (catches := catches) (clsObj := clsObj) h he hp).1 h1 hok hbd hN (.send sel (rcvr :: args)) w v w'
  refine ⟨fun ht => (hsrc w rcvr args hcl _ _).1 (h2 ht), fun ht => (h3 ht).imp (fun h => (hsrc w rcvr args hcl _ _).1 h) fun ⟨x, w2, hq, hx⟩ => ?_⟩
  obtain ⟨j, hj⟩ := (hsrc w rcvr args hcl _ _).1 hx
  exact ⟨x, w2, j, hq, hj⟩

/-- C73 (partly): both interpreters give the same result for every call in the program, unless one of them raises one of these errors. -/
theorem C73_interpreters_partial (h : After env P s first u) {e : Inv.Engine} (he : env.known = vmKnown e) (hp : ∀ n sel x, namedPrim n sel = some x → prim n sel = x) (h1 : fo.ofInt 1 = .ok fo.one) (hK : Good K)
    (hb : Bodies K M (p = .cpython) N known alloc k texts num env src2 q) (ha : Mach.Apart q) (hN : N → ∀ c, (u.image first s prim blkArgs catches clsObj).find c Mach.escapedBlock = none)
    (c : Mach.Call) (w : St (Data F) Printed) (r r' : Res Esc) (w1 w2 : St (Data F) Printed) :
    let I := u.image first s prim blkArgs catches clsObj
    (I.prog p fo).trees (I.incs p fo) q c w r w1 → (I.prog p fo).bytecode (I.incs p fo) q c w r' w2 → (∀ e, r = .exc e → ¬ Mach.Quirk e) → (∀ e, r' = .exc e → ¬ Mach.Quirk e) → r = r' ∧ w1 = w2 :=
  fun hr hr' hq1 hq2 => C72_interpreters_partial h he hp h1 (hb.ok hK).1 ha hN c w r r' w1 w2 hr hr' hq1 hq2

end

/-! ## Examples -/

namespace TextDemo
open PySOM.Elab (class_of classAst_of exists_ok methodAt digits ascii_ok C64_names_partial)

def getX : Method := ⟨"x".toList, [], some ([], [.var "x".toList], true)⟩
def getY : Method := ⟨"y".toList, [], some ([], [.var "y".toList], true)⟩

/-- A file of a class of the VM without anything in it. -/
def bare (n : Name) (sup : Option Name) : Name × List Char × ClassText := (n, n ++ " = ".toList ++ sup.getD "nil".toList ++ " ( )".toList, ⟨n, some (sup.getD "nil".toList), [], [], none⟩)

/-- The files of the class path: names, texts, and what they say. -/
def decls : List (Name × List Char × ClassText) :=
  ("Point".toList, "Point = ( | x | x = ( ^ x ) )".toList, ⟨"Point".toList, none, [['x']], [getX], none⟩) ::
  ("Point3D".toList, "Point3D = Point ( | y | y = ( ^ y ) )".toList, ⟨"Point3D".toList, some "Point".toList, [['y']], [getY], none⟩) ::
  (ownClasses.map fun e => bare e.1 e.2) ++ ["Block", "True", "False", "System", "Block1", "Block2", "Block3"].map fun n => bare n.toList (some "Object".toList)

def num (_ : Nat) (n : Name) (_ : Bool) (_ : Nat) : Nat := if n = "Point".toList then 0 else 1

def texts (p : Nat) (n : Name) : Option (List Char) := if p = 1 then (List.lookup n decls).map (·.1) else none

def env : Env where
  files p n := if p = 1 then (List.lookup n decls).map fun x => textOf (num p n) x.2 else none
  classpath := [0, 1]
  known := vmKnown .bc
  avoidExit := false

def started : U := (boot env 5 ⟨[], []⟩).2
def loaded : U := (loadClass sys0.meta env 5 "Point3D".toList started).2

theorem starts : boot env 5 ⟨[], []⟩ = (.ok sys0, started) := Demo.gives_eq (by decide +kernel)

theorem lookup_mem {α : Type} {n : Name} {t : α} : ∀ {fs : List (Name × α)}, List.lookup n fs = some t → (n, t) ∈ fs
  | [], h => nomatch h
  | (m, t') :: fs, h => by
    rw [List.lookup_cons] at h
    split at h
    · rename_i he
      cases h
      rw [eq_of_beq he]
      exact List.mem_cons_self
    · exact List.mem_cons_of_mem _ (lookup_mem h)

theorem source_decls {n : Name} {t : Text} (h : source env n = some t) : ∃ x, (n, x) ∈ decls ∧ t = textOf (num 1 n) x.2 := by
  have h' : List.findSome? (fun p => if p = 1 then (List.lookup n decls).map fun x => textOf (num p n) x.2 else none) [0, 1] = some t := h
  cases hl : List.lookup n decls with
  | none => rw [hl] at h'; simp at h'
  | some x => rw [hl] at h'; exact ⟨x, lookup_mem hl, by simpa using h'.symm⟩

theorem plain : NoSpecial env := fun n t m h hm => by
  obtain ⟨x, hx, rfl⟩ := source_decls h
  have : ∀ x ∈ decls, ∀ m ∈ (textOf (num 1 x.1) x.2.2).super, m ∉ specials := by decide +kernel
  exact this _ hx m hm

theorem noFields : NoFields env := fun e he t ht => by
  obtain ⟨x, hx, rfl⟩ := source_decls ht
  have : ∀ e ∈ ownClasses, ∀ x ∈ decls, x.1 = e.1 → (textOf (num 1 x.1) x.2.2).super = e.2 ∧ x.2.2.fields = [] ∧ (classSide x.2.2).1 = [] := by decide +kernel
  have := this e he _ hx rfl
  exact ⟨this.1, fun p hp => by cases hp; exact this.2⟩

theorem after : After env (fun _ => False) sys0 started loaded := ⟨rfl, plain, ⟨5, starts⟩, .load started started 5 "Point3D".toList (.stay _)⟩

/-- Both parsers read the texts. -/
theorem parsed : ∀ x ∈ decls, IsClass Lex.Spec.ascii x.2.1 x.2.2 ∧ IsClassAst Lex.Spec.ascii x.2.1 x.2.2 := by
  have h1 : ∀ x ∈ decls, (Lex.scanAll Lex.Spec.ascii 100 (Lex.St.init x.2.1)).any (fun r => match r with
      | .ok ts => match Parse.classdef .bc 100 ⟨ts, false⟩ with | .ok (e, _) => decide (e = x.2.2) | .error _ => false
      | .error _ => false) = true := by decide +kernel
  have h2 : ∀ x ∈ decls, (Lex.scanAll Lex.Spec.ascii 100 (Lex.St.init x.2.1)).any (fun r => match r with
      | .ok ts => match Parse.classdef .ast 100 ⟨ts, false⟩ with | .ok (e, _) => decide (e = x.2.2) | .error _ => false
      | .error _ => false) = true := by decide +kernel
  exact fun x hx => ⟨class_of (h1 x hx), classAst_of (h2 x hx)⟩

theorem reads : Reads Lex.Spec.ascii texts num env where
  none p n h := by
    unfold texts at h
    show (if p = 1 then _ else _) = _
    split at h
    · rename_i hp
      rw [if_pos hp, Option.map_eq_none_iff.1 h]
      rfl
    · rename_i hp
      rw [if_neg hp]
  some p n t h := by
    unfold texts at h
    split at h
    · rename_i hp
      obtain ⟨x, hx, rfl⟩ := Option.map_eq_some_iff.1 h
      exact ⟨textOf (num p n) x.2, by show (if p = 1 then _ else _) = _; rw [if_pos hp, hx]; rfl, fun _ _ => ⟨x.2, (parsed _ (lookup_mem hx)).1, (parsed _ (lookup_mem hx)).2, rfl⟩⟩
    · cases h

/-- These texts can be read in one way only. -/
theorem class_unique {t : List Char} {d d' : ClassText} (hp : Elab.NoPseudo Lex.Spec.ascii t) (h : IsClass Lex.Spec.ascii t d) (h' : IsClass Lex.Spec.ascii t d') : d = d' := by
  have key : ∀ d, IsClass Lex.Spec.ascii t d → ∃ ts rest, Lex.Spec.Tokens Lex.Spec.ascii t ts ∧ ∃ n, ∀ m, n ≤ m → Parse.classdef .ast m ⟨ts, false⟩ = .ok (d, ⟨rest, false⟩) := by
    rintro d ⟨fuel, toks, n, ⟨rest, b⟩, h1, h2⟩
    have ht := (Lex.C24_file_tokens Lex.Spec.ascii ascii_ok.toGood (Lex.St.init t) (Lex.between_init t) toks).1 ⟨fuel, h1⟩
    exact ⟨toks, rest, ht, Parse.C58_ast_follows_bc_partial n toks rest b d (hp toks ht) (fun x hx => (Elab.tokens_ok ascii_ok.toGood ascii_ok.dollar ht x hx).legal) h2⟩
  obtain ⟨ts, r, h1, n, h2⟩ := key d h
  obtain ⟨ts', r', h1', n', h2'⟩ := key d' h'
  cases Elab.tokens_unique h1 h1'
  have := (h2 (max n n') (Nat.le_max_left _ _)).symm.trans (h2' (max n n') (Nat.le_max_right _ _))
  injection this with this
  injection this

def pointFields : List Name := [['x']]
def point3DFields : List Name := [['x'], ['y']]

theorem fields_point : Fields env ⟨false, "Point".toList⟩ pointFields :=
  .sub _ "Object".toList (sideOf (num 1 "Point".toList false) [['x']] [getX], sideOf (num 1 "Point".toList true) [] []) [] (by decide +kernel) (by decide +kernel) (by decide +kernel) (.own _ (by decide +kernel))

theorem fields_point3D : Fields env ⟨false, "Point3D".toList⟩ point3DFields :=
  .sub _ "Point".toList (sideOf (num 1 "Point3D".toList false) [['y']] [getY], sideOf (num 1 "Point3D".toList true) [] []) [['x']] (by decide +kernel) (by decide +kernel) (by decide +kernel) fields_point

theorem in_point : "Point".toList ∈ decls.map (·.1) := by decide +kernel

/-- The methods that there are. -/
theorem the_methods : ∀ x ∈ decls, methodsOf true x.2.2 = [] ∧ (methodsOf false x.2.2 = [] ∨ (x.1 = "Point".toList ∧ x.2.1 = "Point = ( | x | x = ( ^ x ) )".toList ∧ methodsOf false x.2.2 = [getX]) ∨
    (x.1 = "Point3D".toList ∧ x.2.1 = "Point3D = Point ( | y | y = ( ^ y ) )".toList ∧ methodsOf false x.2.2 = [getY])) := by decide +kernel

/-- A method that answers a field, compiled for both interpreters. -/
theorem getter (D : Prop) (text : List Char) (fields : List Name) (d : ClassText) (sel x : Name) (hd : IsClass Lex.Spec.ascii text d ∧ IsClassAst Lex.Spec.ascii text d)
    (hm : ⟨sel, [], some ([], [.var x], true)⟩ ∈ Elab.Spec.allMethods d)
    (h : (match methodAt digits fields 0 0 [] [] [] [.var x] true with
      | .ok (S, _) => match S.compile (fun _ => true) 2 with
        | .ok g => (BC.assemble g).toOption.isSome && (S.ast (fun _ => true) (fun _ => .nil)).toOption.isSome
        | .error _ => false
      | .error _ => false) = true) :
    ∃ S code tree, Method2 Lex.Spec.ascii digits True D True False False (fun _ => true) (fun _ => .nil) 2 text fields ⟨sel, [], some ([], [.var x], true)⟩ S S code tree := by
  cases h1 : methodAt digits fields 0 0 [] [] [] [.var x] true with
  | error _ => rw [h1] at h; cases h
  | ok p =>
    obtain ⟨S, s⟩ := p
    rw [h1] at h
    dsimp only at h
    cases h2 : S.compile (fun _ => true) 2 with
    | error _ => rw [h2] at h; cases h
    | ok g =>
      rw [h2] at h
      dsimp only at h
      rw [Bool.and_eq_true] at h
      obtain ⟨code, hc⟩ := exists_ok h.1
      obtain ⟨tree, ht⟩ := exists_ok h.2
      have hl : Parse.selfName ∉ ([] : List Name) := by simp
      have hb : Parse.selfName ∉ Elab.Spec.blockLocalsL [.var x] := by simp [Elab.Spec.blockLocalsL, Elab.Spec.blockLocals]
      refine ⟨S, code, tree, ⟨d, hd.1, hd.2, hm⟩, ⟨[], [.var x], true, rfl, hl, hb, ?_, ?_, 0, 0, [], s, s, h1, (C64_names_partial digits fields 0 0 [] [] [] [.var x] true hl hb _).2 h1⟩, ⟨g, h2, hc⟩, ht⟩
      · simp [Elab.Spec.fairL, Elab.Spec.fairT]
      · rintro _ ⟨f, y, h⟩
        simp at h

theorem text_at {n : Name} {ps : List Nat} {p : Nat} {t : List Char} (h : TextOf texts n ps p t) : ∃ p, texts p n = some t := by
  induction h with
  | here p _ _ h => exact ⟨p, h⟩
  | later _ _ _ _ _ _ ih => exact ih

theorem compiled (D : Prop) : ∃ q : Compiled2 Nat, Bodies Lex.Spec.ascii digits D False (fun _ => true) (fun _ => .nil) 2 texts num env q.src q := by
  obtain ⟨S, code, tree, hx⟩ := getter D "Point = ( | x | x = ( ^ x ) )".toList pointFields _ "x".toList "x".toList (parsed _ (List.mem_cons_self)) (by decide +kernel) (by decide +kernel)
  obtain ⟨S', code', tree', hy⟩ := getter D "Point3D = Point ( | y | y = ( ^ y ) )".toList point3DFields _ "y".toList "y".toList (parsed _ (List.mem_cons_of_mem _ List.mem_cons_self)) (by decide +kernel) (by decide +kernel)
  refine ⟨⟨fun i => if i = 0 then S else S', fun i => if i = 0 then code else code', fun i => if i = 0 then tree else tree'⟩, fun i => ?_, fun p n t d b j m fs ht hd _ hj hi hf => ?_⟩
  · dsimp only
    by_cases h : i = 0
    · simp only [if_pos h]; exact ⟨_, _, _, hx⟩
    · simp only [if_neg h]; exact ⟨_, _, _, hy⟩
  · have ht' : ∃ x, (n, x) ∈ decls ∧ x.1 = t := by
      obtain ⟨p, hp⟩ := text_at ht
      unfold texts at hp
      split at hp
      · obtain ⟨x, hl, e⟩ := Option.map_eq_some_iff.1 hp
        exact ⟨x, lookup_mem hl, e⟩
      · cases hp
    obtain ⟨⟨_, d'⟩, hmem, rfl⟩ := ht'
    have hps : ∀ x ∈ decls, Elab.NoPseudo Lex.Spec.ascii x.2.1 := by
      have h2 : ∀ x ∈ decls, (Lex.scanAll Lex.Spec.ascii 100 (Lex.St.init x.2.1)).any (fun r => match r with
          | .ok ts => ts.all fun t => decide (t.text ≠ Parse.superName) && decide (t.text ≠ Parse.selfName)
          | .error _ => false) = true := by decide +kernel
      exact fun x hx => Elab.noPseudo_of (h2 x hx)
    cases class_unique (hps _ hmem) hd (parsed _ hmem).1
    obtain ⟨h1, h2⟩ := the_methods _ hmem
    dsimp only at h1 h2 hj
    cases b with
    | true => rw [h1] at hj; cases hj
    | false =>
      rcases h2 with h2 | ⟨rfl, rfl, h2⟩ | ⟨rfl, rfl, h2⟩
      · rw [h2] at hj; cases hj
      · rw [h2] at hj
        cases j with
        | succ j => cases hj
        | zero =>
          cases hj
          cases hf.unique fields_point
          exact hx
      · rw [h2] at hj
        cases j with
        | succ j => cases hj
        | zero =>
          cases hj
          cases hf.unique fields_point3D
          exact hy

theorem point3D : Described env loaded ⟨false, "Point3D".toList⟩ 39 := (C72_class after (by decide +kernel) fun _ _ h => h).1

theorem says_x : Says env "x".toList ⟨false, "Point3D".toList⟩ (some (⟨false, "Point".toList⟩, .code 0)) :=
  .up _ _ _ (by decide +kernel) (show above env ⟨false, "Point3D".toList⟩ = some ⟨false, "Point".toList⟩ by decide +kernel) (.own _ _ (by decide +kernel))
theorem says_y : Says env "y".toList ⟨false, "Point3D".toList⟩ (some (⟨false, "Point3D".toList⟩, .code 1)) := .own _ _ (by decide +kernel)

/-- Instances of `Point3D` have the fields `x` and `y`. -/
example : ∃ fs, (∀ fs', Fields env ⟨false, "Point3D".toList⟩ fs' ↔ fs' = fs) ∧ (loaded.at 39).fields = some fs ∧
    (loaded.image started sys0 (fun n sel => (namedPrim n sel).getD .halt) (fun _ => 1) (fun _ => true) fun c => c).nflds 39 = fs.length :=
  C73_fields noFields point3D _ _ _ _

example : (loaded.at 39).fields = some point3DFields := by decide +kernel

/-- `Point3D` is a subclass of `Point`, says its text. -/
example : ∃ p t cls, TextOf texts "Point3D".toList [0, 1] p t ∧ IsClass Lex.Spec.ascii t cls ∧ superIn cls = some "Point".toList := by
  obtain ⟨p, t, cls, _, h1, h2, _, _, _, h3, _⟩ := C73_class reads (n := "Point3D".toList) (by decide +kernel) point3D.filed
  exact ⟨p, t, cls, h1, h2, h3.symm.trans (by decide +kernel)⟩

/-- `x` is the first one in both classes. -/
example : ∀ (j : Nat) (x : Name), pointFields[j]? = some x → point3DFields[j]? = some x := C73_inherited says_x fields_point3D fields_point

/-- The method `x` of `Point`. -/
example {q : Compiled2 Nat} {D : Prop} (hb : Bodies Lex.Spec.ascii digits D False (fun _ => true) (fun _ => .nil) 2 texts num env q.src q) :
    ∃ p t cls j m, TextOf texts "Point".toList [0, 1] p t ∧ IsClass Lex.Spec.ascii t cls ∧ IsClassAst Lex.Spec.ascii t cls ∧ LastAt (methodsOf false cls) "x".toList j m ∧ m.impl.isSome = true ∧
      Method2 Lex.Spec.ascii digits True D True False False (fun _ => true) (fun _ => .nil) 2 t pointFields m (q.src 0) (q.src 0) (q.code 0) (q.tree 0) := C73_method reads hb says_x fields_point

/-- Sending `y` to a `Point3D` gives the value of the body in the text. -/
example {F : Type} (fo : Floats F) (h1 : fo.ofInt 1 = .ok fo.one) {q : Compiled2 Nat} (hb : Bodies Lex.Spec.ascii digits (Platform.cpython = .cpython) False (fun _ => true) (fun _ => .nil) 2 texts num env q.src q)
    (w : St (Data F) Printed) (a : Nat) (ha : w.sh.objs[a]? = some (.inst 39 [.int 1, .int 2])) :
    let I := loaded.image started sys0 (fun n sel => (namedPrim n sel).getD .halt) (fun _ => 1) (fun _ => true) fun c => c
    let G := I.prog .cpython fo
    let eval := fun j => (q.src 1).eval (fun _ => true) (G.ideal (Platform.cpython = .cpython) (I.incs .cpython fo) (srcBehaviour (fun _ => true) q.src (G.language (Platform.cpython = .cpython) (I.incs .cpython fo)) Esc.err j)) Esc.err
    ∃ hc, Described env loaded ⟨false, "Point3D".toList⟩ hc ∧ ∀ v w', G.trees (I.incs .cpython fo) q (.send "y".toList [.obj a]) w (.val v) w' → ∃ j, Runs (eval j) [.obj a] none hc true w (.val v) w' := by
  intro I G eval
  obtain ⟨hc, hd, h⟩ := C73_value_partial (prim := fun n sel => (namedPrim n sel).getD .halt) (blkArgs := fun _ => 1) (catches := fun _ => true) (clsObj := fun c => c) (p := .cpython) (fo := fo) after (e := .bc) rfl
    (fun n sel x h => by rw [h]; rfl) h1 ascii_ok hb (fun h => h.elim) point3D says_y
  exact ⟨hc, hd, fun v w' => (h w (.obj a) [] (by simp only [Mach.Prog.classOf, ha]) v w').1⟩

/-- Files in which `Class` has a field and a method for it, and `Point` one on its class side. -/
def decls2 : List (Name × List Char × ClassText) :=
  ("Class".toList, "Class = ( | a | a = ( ^ a ) )".toList, ⟨"Class".toList, none, [['a']], [⟨['a'], [], some ([], [.var ['a']], true)⟩], none⟩) ::
  ("Point".toList, "Point = ( ---- | x | )".toList, ⟨"Point".toList, none, [], [], some ([['x']], [])⟩) :: decls

def env2 : Env := { env with files := fun p n => if p = 1 then (List.lookup n decls2).map fun x => textOf (num p n) x.2 else none }

end TextDemo

/-- C73 is violated by fields of `Class`: the classes of classes do not have them, although their instances understand the methods of `Class`, so that here `Point a` answers the field `x` of `Point class`. -/
theorem C73_violated : (∀ x ∈ TextDemo.decls2, IsClass Lex.Spec.ascii x.2.1 x.2.2 ∧ IsClassAst Lex.Spec.ascii x.2.1 x.2.2) ∧
    (∀ n, TextDemo.env2.files 1 n = (List.lookup n TextDemo.decls2).map fun x => textOf (TextDemo.num 1 n) x.2) ∧
    ∃ u u' c m k, boot TextDemo.env2 5 ⟨[], []⟩ = (.ok sys0, u) ∧ loadClass sys0.meta TextDemo.env2 5 "Point".toList u = (.ok (.cls c), u') ∧ (u'.at c).cls = some m ∧
      (u'.at m).fields = some [['x']] ∧ k ∈ u'.chain m ∧ (u'.at k).name = some "Class".toList ∧ (u'.at k).fields = some [['a']] ∧
      (∃ i, (u'.at k).method ['a'] = some ⟨['a'], .code i, k⟩) ∧ ∃ S s, Elab.methodAt Elab.digits [['a']] 0 0 [] [] [] [.var ['a']] true = .ok (S, s) ∧ S.body = .exit (.fld ['a'] 0) := by
  have h1 : ∀ x ∈ TextDemo.decls2, (Lex.scanAll Lex.Spec.ascii 100 (Lex.St.init x.2.1)).any (fun r => match r with
      | .ok ts => match Parse.classdef .bc 100 ⟨ts, false⟩ with | .ok (e, _) => decide (e = x.2.2) | .error _ => false
      | .error _ => false) = true := by decide +kernel
  have h2 : ∀ x ∈ TextDemo.decls2, (Lex.scanAll Lex.Spec.ascii 100 (Lex.St.init x.2.1)).any (fun r => match r with
      | .ok ts => match Parse.classdef .ast 100 ⟨ts, false⟩ with | .ok (e, _) => decide (e = x.2.2) | .error _ => false
      | .error _ => false) = true := by decide +kernel
  refine ⟨fun x hx => ⟨Elab.class_of (h1 x hx), Elab.classAst_of (h2 x hx)⟩, fun n => rfl, ?_⟩
  exact ⟨(boot TextDemo.env2 5 ⟨[], []⟩).2, (loadClass sys0.meta TextDemo.env2 5 "Point".toList (boot TextDemo.env2 5 ⟨[], []⟩).2).2, 37, 36, 7, Demo.gives_eq (by decide +kernel), Demo.gives_eq (by decide +kernel),
    by decide +kernel, by decide +kernel, by decide +kernel, by decide +kernel, by decide +kernel, ⟨1, by decide +kernel⟩, _, _, rfl, rfl⟩

end PySOM.Boot
