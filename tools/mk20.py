import json
L=[]
def a(d,f,o,n,e,b): L.append({"def":d,"file":f,"old":o,"new":n,"edit":e,"breaks":b})
lo="Model/LiveryObjs.lean"
a("liverySwitch",lo,"{ related := related,","{ related := !related,","the other scope","C68: the livery of the front vehicle is shown")
a("liverySwitch",lo,".obj ((k0 :: ks).getD i 0))",".obj (ks.getD i 0))","liveries counted from the second","C68: livery i for subtype i")
a("liverySwitch",lo,"((i : Int), (i : Int),","((i : Int), (i : Int) + 1,","ranges one too long","C68: livery i for subtype i")
a("liverySwitch",lo,"default := .obj k0","default := .obj (ks.getD 0 0)","default is the second livery","C68: the first livery otherwise")
a("liverySwitch",lo,"(List.range (k0 :: ks).length)","(List.range ks.length)","last livery lost","C68: livery i for subtype i")
v="Props/VehicleInGame.lean"
a("varName",v,'| .subtype => "cargo_subtype"','| .subtype => "extra_callback_info1_byte"',"livery names by the argument","C85: livery names by cargo subtype, in the game")
a("varName",v,'| .info => "extra_callback_info1_byte"','| .info => "current_callback"',"sounds by the callback number","C85: sounds and parts by the argument, in the game")
c="Model/VehicleCallbacks.lean"
a("switches",c,".int 0x400⟩)",".int 0x7fff⟩)","names end with 0x7fff","C85: 0x400 beyond the last livery")
a("switches",c,"numbered 1 v.parts","numbered 0 v.parts","parts from 0","C85: parts from 1 on")
a("switches",c,"(o.sounds, ⟨.info, v.sounds, g⟩)","(o.sounds, ⟨.subtype, v.sounds, g⟩)","sounds by the subtype","C85: sounds by event")
json.dump(L,open('/tmp/gen/m20.json','w'),ensure_ascii=False,indent=1)
