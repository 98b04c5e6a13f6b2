import json,sys
for i,m in enumerate(json.load(open(sys.argv[1]))):
    n=open('/verif/lean/Verif/'+m['file']).read().count(m['old'])
    if n!=1: print(i,n,m['def'],m['old'][:60])
