import json
M=[]
def m(d,old,new,edit,breaks,file="Model/Chain.lean"): M.append(dict(**{"def":d},file=file,old=old,new=new,edit=edit,breaks=breaks))
m("Chain.Obj.act","refs := s.subs.map (fun p => .obj p.2) ++ s.ranges.map","refs := s.ranges.map","get_refs of a switch leaves out the subroutines","C88: subroutines are not in the file")
m("Chain.Obj.act"," ++ s.ranges.map (fun r => r.2.2.arg) ++ [s.default.arg] }"," ++ [s.default.arg] }","get_refs of a switch leaves out the ranges","C88: range targets are not in the file")
m("Chain.Obj.act"," ++ s.ranges.map (fun r => r.2.2.arg) ++ [s.default.arg] }"," ++ s.ranges.map (fun r => r.2.2.arg) }","get_refs of a switch leaves out the default","C88: the default target is not in the file")
m("Chain.Obj.act","refs := maps.map (fun p => p.2.arg) ++ [d.arg] }","refs := maps.map (fun p => p.2.arg) }","get_refs of a map leaves out the default","C88: the default of a map is not in the file")
m("Chain.Obj.act","refs := maps.map (fun p => p.2.arg) ++ [d.arg] }","refs := [d.arg] }","get_refs of a map leaves out the cargo types","C88: cargo graphics are not in the file")
m("Chain.Obj.act","{ referencing := true, feature := some f, refs := maps","{ referencing := true, referenceable := true, feature := some f, refs := maps","a map can be referred to","C88: maps take ids")
m("Chain.Obj.act",".sprites f _ => { referenceable := true, feature := f }",".sprites f _ => { feature := f }","layouts cannot be referred to","C88: layouts are not put into the file")
m("Chain.Tgt.toTarget","| .obj k => (id k).map .action","| .obj k => (id k).map fun i => .action (i + 1)","target id off by one","C88: the word is that of another action")
m("Chain.Tgt.toTarget","| .obj k => (id k).map .action","| .obj k => (id k).map .num","target id written as a callback result","C88: the word is a number")
m("Chain.Tgt.toTarget","| .result n => some (.num n)","| .result n => some (.action n)","callback result written without bit 15","C88: the word is an id")
m("Chain.toRange","fun t => ⟨r.1, r.2.1, t⟩","fun t => ⟨r.2.1, r.1, t⟩","range ends swapped","C88: other values are caught")
m("Chain.toRange","fun t => ⟨r.1, r.2.1, t⟩","fun t => ⟨r.1, r.2.1 + 1, t⟩","range one too long","C88: another target is picked at the border")
m("Chain.Sw.tables","⟨vt f s.related, fun n => (s.subs.lookup n).bind id⟩","⟨vt f (!s.related), fun n => (s.subs.lookup n).bind id⟩","variables of the other scope","C88: another variable is read")
m("Chain.Sw.tables","⟨vt f s.related, fun n => (s.subs.lookup n).bind id⟩","⟨vt f s.related, fun n => (s.subs.lookup n).map Int.ofNat⟩","subroutines called by something other than their id","C88: another group is called")
m("Chain.Sw.tables","⟨vt f s.related, fun n => (s.subs.lookup n).bind id⟩","⟨vt f s.related, fun _ => (s.subs.head?.map (·.2)).bind id⟩","the first subroutine is always called","C88: another subroutine runs")
m("Chain.Sw.bytes","⟨f, i, s.related, s.code, rs, d⟩","⟨f, i, false, s.code, rs, d⟩","scope not written","C88: variables of the wrong scope")
m("Chain.Sw.bytes","⟨f, i, s.related, s.code, rs, d⟩","⟨i, f, s.related, s.code, rs, d⟩","feature and id swapped","C88: the switch gets another number")
m("Chain.Sw.bytes","⟨f, i, s.related, s.code, rs, d⟩","⟨f, i, s.related, s.code, rs.reverse, d⟩","ranges in the other order","C88: another range wins")
m("Chain.Sw.bytes","⟨f, i, s.related, s.code, rs, d⟩","⟨f, i, s.related, s.code.drop 1, rs, d⟩","first line not compiled","C88: the assignment in it is lost")
m("Chain.Sw.bytes","⟨f, i, s.related, s.code, rs, d⟩","⟨f, i, s.related, s.code, rs.drop 1, d⟩","first range not written","C88: its values go elsewhere")
m("Chain.layoutBytes","cat [packU 1 2, packU 1 f, packU 1 i, some data]","cat [packU 1 2, packU 1 i, packU 1 f, some data]","feature and id swapped in a layout","C88: the layout gets another number")
m("Chain.layoutBytes","cat [packU 1 2, packU 1 f, packU 1 i, some data]","cat [packU 1 2, packU 1 f, packU 1 i, some data, packU 1 0]","one byte more in a layout","C88: something else is drawn")
m("Chain.toEntry","fun t => (p.1, t)","fun t => (p.1 + 1, t)","cargo types shifted","C88: the graphics of another cargo")
m("Chain.mapBytes","GMap.getData ⟨f, ids, ms, t, false⟩","GMap.getData ⟨f, ids, ms.reverse, t, false⟩","entries in the other order","C88: the words do not stand in the order of the cargo types")
m("Chain.mapBytes","GMap.getData ⟨f, ids, ms, t, false⟩","GMap.getData ⟨f, ids.drop 1, ms, t, false⟩","first id dropped","C88: the map is for other vehicles")
m("Chain.mapBytes","let t ← d.toTarget id\n  Acts","let t ← (maps.head?.map (·.2)).getD d |>.toTarget id\n  Acts","default is the first entry","C88: the default word is another target")
m("Chain.bytesOf",".sprites _ d => (res.feature k).bind fun f => (idOf O res k).bind fun i => layoutBytes f i d",".sprites _ d => (res.feature k).bind fun f => (idOf O res k).bind fun i => layoutBytes f (i - 1) d","layout written with another id","C88: the word leads elsewhere")
m("Chain.items","res.out.map (itemOf vt O res)","res.out.reverse.map (itemOf vt O res)","items in the other order","C88: targets come after their maps")
m("Chain.items","res.out.map (itemOf vt O res)","(res.out.drop 1).map (itemOf vt O res)","first item dropped","C88: a target is missing")
m("Chain.Tgt.toTarget","| .cb n => some (mkCB n)","| .cb n => some (.ref n)","CB written without bit 15","C88: a CB target becomes an id")
m("Chain.Tgt.toTarget","| .sound i => some (.sound i)","| .sound i => some (.num (i + 73))","sound id shifted by the original sounds","C88: another sound is played")
m("Chain.Tgt.arg","| .cb n => .ref true (pyAnd (pyOr n 0x8000) 0x7fff)","| .cb n => .ref false (pyAnd (pyOr n 0x8000) 0x7fff)","a CB is taken for a reference to an id","C88: a callback result is resolved to an action")
m("Chain.Obj.act","refs := gs.map Tgt.arg }","refs := [] }","get_refs of a random switch yields nothing","C88: the random groups are not in the file")
m("Chain.Obj.act","refs := gs.map Tgt.arg }","refs := (gs.drop 1).map Tgt.arg }","get_refs of a random switch misses the first group","C88: the first random group is not in the file")
m("Chain.randomBytes","if parent then .parent else .self","if parent then .self else .parent","scope of a random switch swapped","C88: the random bits of the other object decide")
m("Chain.randomBytes","cmpAll, lowest, gs⟩","cmpAll, triggers, gs⟩","triggers written for the lowest bit","C88: other random bits decide")
m("Chain.randomBytes","cmpAll, lowest, gs⟩","cmpAll, lowest, gs.reverse⟩","random groups in the other order","C88: another group is drawn")
m("Chain.randomBytes","cmpAll, lowest, gs⟩","cmpAll, lowest, gs.take 1⟩","only the first random group is written","C88: always the first group is drawn")
m("Chain.randomBytes","⟨f, i, if parent","⟨f, i + 1, if parent","random switch written with another id","C88: the word leads elsewhere")
json.dump(M,open('/tmp/gen/m16.json','w'),indent=1)
