import json
M=[]
def m(d,f,o,n,e,b): M.append(dict(**{"def":d},file=f,old=o,new=n,edit=e,breaks=b))
m("dfs","Model/Refs.lean","""        let st ← (R.ordered aid).foldlM (fun st x => dfs W R limit x owner feature st) st
        let st ← (R.unordered aid).foldlM (fun st x => dfs W R limit x owner feature st) st""","""        let st ← (R.unordered aid).foldlM (fun st x => dfs W R limit x owner feature st) st
        let st ← (R.ordered aid).foldlM (fun st x => dfs W R limit x owner feature st) st""","visits the unordered references before the ordered ones","C90: an added layout is visited first by its map")
m("resolveArg","Model/Refs.lean","ordered := upd st1.ordered s (st1.ordered s ++ [r]) }","ordered := upd st1.ordered s (r :: st1.ordered s) }","prepends to the ordered references","C90")
m("resolveArg","Model/Refs.lean","unordered := upd st1.unordered s (st1.unordered s ++ [r]) }","unordered := upd st1.unordered s (r :: st1.unordered s) }","prepends to the unordered references","C90")
m("roots","Model/Refs.lean","(R.actions.map (·.1)).filter","(R.actions.map (·.1)).reverse.filter","takes the roots in reverse order","C12/C90: order of traversal")
m("shipSprites","Model/VehicleSprites.lean","purchaseSprites purchase ++ names ++ [definition] ++ graphics liveries ++ maps","names ++ [definition] ++ graphics liveries ++ purchaseSprites purchase ++ maps","purchase sprites after the liveries","C90/C66: the liveries' Action 1 is no longer the one the map's layouts draw from")
m("trainSprites","Model/VehicleSprites.lean","purchaseSprites purchase ++ graphics head ++ names ++ [definition] ++ maps ++","graphics head ++ purchaseSprites purchase ++ names ++ [definition] ++ maps ++","purchase sprites after the head's graphics","C66/C90")
m("purchaseSprites","Model/VehicleSprites.lean","| some (set, sprite, layout) => [set, sprite, layout]","| some (set, sprite, layout) => [layout, set, sprite]","layout before its sprite set","C90: the purchase layout draws from an earlier set")
m("assemble","Model/Refs.lean","if (W s).referencing then (D.linked s).getD [] else [s]","if (W s).referencing then (D.linked s).getD [] else if (W s).referenceable then [] else [s]","drops added layouts","C90/C11")
m("Obj.act","Model/Chain.lean","","","","") if False else None
json.dump(M,open("m18.json","w"),indent=1)
