import json
M=[]
def m(d,f,o,n,e,b): M.append({"def":d,"file":"Model/"+f+".lean","old":o,"new":n,"edit":e,"breaks":b})
T="VehicleCallbacks"
m("setGraphics",T,"(default.or d) (purchase.or p)","(default.or d) (default.or p)","purchase list shows the map graphics","purchase sprite shown (C85)")
m("setGraphics",T,"(default.or d) (purchase.or p)","(d.or default) (purchase.or p)","user's graphics win over liveries","map graphics (C85)")
m("textSet",T,"(\"additional_text\"","(\"cargo_subtype_text\"","text registered under another callback","additional text answered (C85)")
m("speedSet",T,"(\"change_properties\"","(\"properties\"","wrong attribute","speed answered (C85)")
m("liverySet",T,"1 < v.names.length","0 < v.names.length","single livery gets a switch","exact callbacks asked (C85)")
m("soundSet",T,"if v.sounds.isEmpty then [] else [(\"sound_effect\"","if v.sounds.isEmpty then [] else [(\"articulated_part\"","sounds as parts","sounds played (C85)")
m("sets",T,"(if f = 1 then speedSet v o else [])","(if f = 0 then speedSet v o else [])","speed callback on trains","fast road vehicle answers its speed (C85)")
m("sets",T,"(if f = 0 then soundSet v o ++ partSet v o else [])","(if f = 0 then partSet v o ++ soundSet v o else [])","order of sounds and parts","(order of independent assignments: equivalent?)")
m("sets",T,"(if f = 0 then soundSet v o ++ partSet v o else [])","(soundSet v o ++ partSet v o)","parts on ships too","exact callbacks (C85)")
m("numbered",T,"(p.2 + k, .int p.1)","(p.2, .int p.1)","parts numbered from 0","articulated parts from 1 on (C85)")
m("switches",T,"numbered 0 v.names, .int 0x400","numbered 0 v.names, .int 0","first text beyond the last livery","0x400 beyond the last (C85)")
m("switches",T,"numbered 1 v.parts, .int 0x7fff","numbered 1 v.parts, .int 0xff","old end marker","list ends with 0x7FFF (C85)")
m("switches",T,"(0x15, .int (v.speed.getD 0))","(0x14, .int (v.speed.getD 0))","another property","speed answered (C85)")
m("switches",T,"⟨.subtype, numbered 0","⟨.info, numbered 0","wrong variable","livery i for cargo subtype i (C85)")
T="Refs"
m("resolveArg",T,"else if r ∈ st1.ordered s then some st1","else if r ∈ st1.unordered s then some st1","order recorded by the wrong list","closure and ids (C27/C28/C86)")
m("recordPos",T,"if p ≠ q then none else some { st with actions := dictSet st.actions s i }","some { st with actions := dictSet st.actions s i }","second position accepted","object added twice is refused")
m("popId",T,"if -m ∈ reserved then popId reserved n r else","if False then popId reserved n r else","reserved ids given out","writing again gives the same ids (C86)")
m("assignId",T,"some { st with reserved := rid :: st.reserved }","some st","preset ids not reserved","writing again gives the same ids (C86)")
m("releaseRef",T,"reserved := st1.reserved.filter (· ≠ rid) }","reserved := st1.reserved }","released ids stay reserved","writing again gives the same ids (C86)")
m("releaseRef",T,"ids := if -rid ∈ st1.ids then st1.ids else -rid :: st1.ids","ids := -rid :: st1.ids","id pushed twice","ids never collide (C28)")
m("releaseRef",T,"ids := if -rid ∈ st1.ids then st1.ids else -rid :: st1.ids","ids := st1.ids","ids never given back","255 live ids suffice (C28)")
m("dfs",T,"if (st.feature aid).isSome ∧ st.feature aid ≠ some feature then none\n      else ","","mixed features accepted","feature clash refused")
m("dfsInit",T,"refCount := R.refCount, ","refCount := fun _ => 1, ","counts not taken from the first phase","ids never collide (C28)")
m("assemble",T,"if (W s).referencing then (D.linked s).getD [] else [s]","if (W s).referenceable then (D.linked s).getD [] else [s]","leaf actions dropped","each action once")
T="SpriteSheet"
m("maxOf",T,"max a (maxOf r)","min a (maxOf r)","rows as high as the lowest","sprites do not overlap (C83)")
m("rowCount",T,"(n + columns - 1) / columns","n / columns","last row not measured","image of all sprites (C83)")
m("measure",T,"h + (padding + maxOf","h + (maxOf","no space between rows","places of sprites (C83)")
m("measure",T,"ofs ++ [h])","ofs ++ [h + padding])","rows too low","places of sprites (C83)")
m("measure",T,"max w ((row l columns k).map o.w).sum","((row l columns k).map o.w).sum","width of the last row","sprites inside the image (C83)")
m("draw",T,"p (a - x) (b - y)","p (b - y) (a - x)","transposed","picture of each sprite (C83)")
m("loop",T,"if i % columns = 0 then padding else x","if i % columns = 0 then 0 else x","rows start at the edge","places of sprites (C83)")
m("loop",T,"(x + (o.w s + padding))","(x + o.w s)","no space between sprites","places of sprites (C83)")
m("makeImage",T,"w + (columns + 1) * padding","w + columns * padding","right edge missing","size of the image (C83)")
T="Alternatives"
m("make",T,"(distinct l).length ≠ l.length","(distinct l).length = l.length","check inverted","duplicates refused (C84)")
m("getSprite",T,"(zoom.isNone || zoom == some s.zoom) &&","(zoom.isNone || zoom == some s.zoom) ||","either condition is enough","the sprite asked for (C84)")
m("getSprite",T,"(bpp.isNone || bpp == s.bpp)","(bpp == s.bpp)","no wildcard for the depth","the sprite asked for (C84)")
T="Dispatch"
m("decodePseudo",T,"else decodeAction T {} a bs","else decodeAction T ctx a bs","sound context kept","context after sounds")
m("decodeAction",T,"⟨.sound, d⟩","⟨.graphics, d⟩","sounds as graphics","sounds are recognised")
m("decodeAction",T,"else if a = 0x09 then (decode7 true bs)","else if a = 0x09 then (decode7 false bs)","action 9 read as 7","reading gives the action written")
m("Action.getData",T,"| .importSound g n => importData g n","| .importSound g n => importData g (n + 1)","wrong sound number","exact format")
T="Packets"
m("makePacket",T,"pure (lo :: hi :: t :: data)","pure (hi :: lo :: t :: data)","size bytes swapped","packets read back")
m("rstrip",T,"(msg.reverse.dropWhile (· == 10)).reverse","msg.dropLast","only one newline removed","lines of the log")
m("chatPacket",T,"[.z, .u 2, .z, .z]","[.z, .u 1, .z, .z]","wrong width of the colour","packets as the game reads them")
T="Remap"
m("fromArray",T,"l.length = 256","l.length ≤ 256","short arrays accepted","256 entries")
m("remapArray",T,"remap[p.toNat]?","remap[p.toNat + 1]?","header counted","pixels remapped")
m("fromFunction",T,"(a.set i (best i))","(a.set (best i).toNat (UInt8.ofNat i))","inverse remap","entry of every colour")
m("Value.broadcast",T,"      | [v] => some (List.replicate n (toByte v))\n","","lists of one refused","broadcasting")
T="SpriteRef"
m("accepted",T,"r.pal ≤ 0x3fff","r.pal ≤ 0x7fff","palette too large accepted","round trip")
m("toGrf",T,"(flag r.noTransparent 14)","(flag r.alwaysTransparent 14)","wrong flag","round trip")
T="Sounds"
m("addSound",T,"upd st.ids s (st.ids r)","st.ids","repeated sound keeps no id","sounds with the same file share an id")
m("soundTable",T,"some (st.sounds.length,","some (st.next,","count is the next id","the table is as announced")
m("runOne",T,"| .gen g => runList fp l st g","| .gen g => runList fp [] st g","nested generators lose what was before","entries in order")
T="Props14"
m("addItem",T,".items (l ++ [x])",".items (x :: l)","texts in reverse order","reading gives what was written")
m("chunks",T,"(bs.drop n.toNat)","bs","data not skipped","reading gives what was written")
m("Key.encode",T,"| .int n => packU 4 n","| .int n => packU 2 n","short keys","exact format")
m("encV",T,"| .str t => textChunk k 0 t","| .str t => textChunk k 0x7f t","wrong language","exact format")
json.dump(M,open('/tmp/gen/m14.json','w'))
