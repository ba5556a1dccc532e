import Verif.Model.Handed

/-!
What a program sees that uses the accessors, if every list it gets is a value of its own: nothing that it does to one list changes another, or what a later
call returns. There is no memory here.
-/

namespace Kagome.Spec

/-- The lists that the program has, in the order in which it got them (`none` is nil), and the texts. -/
structure Lists where
  lists : List (Option (List Bytes))
  told : List Told
deriving DecidableEq

/-- A step. `t` is the tokenizer that the tokens come from. -/
def Lists.step (t : Tokenizer) (ideo : Nat → Bool) (g : Lists) : Use → Option Lists
  | .features tok => (features tok).map (fun l => { g with lists := g.lists ++ [l] })
  | .featureAt tok i => (featureAt tok i).map (fun r => { g with told := g.told ++ [.feature r] })
  | .extra tok =>
    if tok.cls = .user then
      ((tok.udict).bind (fun u => goGet u.contents tok.id)).map (fun c => { g with lists := g.lists ++ [some c.tokens, some c.yomi] })
    else some g
  | .pos tok => (tokenPOS tok).map (fun l => { g with lists := g.lists ++ [l] })
  | .data tok => (newTokenData tok).map (fun x => ⟨g.lists ++ [x.pos, x.features], g.told ++ [.data x.baseForm x.reading x.pronunciation]⟩)
  | .wakati inp => (wakati t ideo inp).map (fun l => { g with lists := g.lists ++ [some l] })
  | .yield f toks => (yieldWords f toks).map (fun l => { g with lists := g.lists ++ [if l = [] then none else some l] })
  | .write j i v =>
    match g.lists[j]? with
    | some (some l) => if i < l.length then some { g with lists := g.lists.set j (some (l.set i v)) } else none
    | _ => none
  | .append j v =>
    match g.lists[j]? with
    | some l => some { g with lists := g.lists.set j (some (l.getD [] ++ [v])) }
    | none => none
  | .part j a b =>
    match g.lists[j]? with
    | some (some l) => if a ≤ b ∧ b ≤ l.length then some { g with lists := g.lists.set j (some ((l.take b).drop a)) } else none
    | _ => none

/-- Any number of steps. -/
def Lists.run (t : Tokenizer) (ideo : Nat → Bool) : List Use → Lists → Option Lists
  | [], g => some g
  | u :: us, g => (g.step t ideo u).bind (Lists.run t ideo us)

/-- What the program sees in memory. -/
def seen (m : Kagome.Held) : Lists := ⟨m.slices.map (Option.map (fun s => s.read m.arrays)), m.told⟩

/-- A slice in memory has these strings. -/
def HasStrings (h : Arrays) (s : StrSlice) (l : List Bytes) : Prop :=
  ∃ a, h[s.arr]? = some a ∧ s.off + s.len ≤ a.length ∧ s.read h = l

/-- Tables in memory, row by row. -/
def HasTable (h : Arrays) (ss : List StrSlice) (ls : List (List Bytes)) : Prop :=
  ss.length = ls.length ∧ ∀ (i : Nat) s l, ss[i]? = some s → ls[i]? = some l → HasStrings h s l

/-- The dictionaries of a tokenizer are in memory. (They may share arrays with each other in any way.) -/
structure InMemory (h : Arrays) (t : Tokenizer) (D : DictsMem) : Prop where
  poss : D.dict.poss = t.dict.poss
  nameList : HasStrings h D.dict.nameList t.dict.nameList
  contentsMeta : D.dict.contentsMeta = t.dict.contentsMeta
  noContents : D.dict.contents = none ↔ t.dict.contents = none
  contents : ∀ ss ls, D.dict.contents = some ss → t.dict.contents = some ls → HasTable h ss ls
  unkMeta : D.dict.unkMeta = t.dict.unk.contentsMeta
  unkContents : HasTable h D.dict.unkContents t.dict.unk.contents
  noUser : D.user = none ↔ t.userDict = none
  user : ∀ us u, D.user = some us → t.userDict = some u → us.length = u.contents.length ∧
    ∀ (i : Nat) e c, us[i]? = some e → u.contents[i]? = some c → HasStrings h e.tokens c.tokens ∧ HasStrings h e.yomi c.yomi ∧ e.pos = c.pos

/-- The tokens of a step come from the tokenizer. -/
def UsesTokensOf (t : Tokenizer) : Use → Prop
  | .features tok | .featureAt tok _ | .extra tok | .pos tok | .data tok => tok.dict = some t.dict ∧ tok.udict = t.userDict
  | .yield _ toks => ∀ tok ∈ toks, tok.dict = some t.dict ∧ tok.udict = t.userDict
  | _ => True

end Kagome.Spec
