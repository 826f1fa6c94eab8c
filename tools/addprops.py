"""Insert property lines (stdin) into props.py before the output section."""
import sys
p="/verif/tools/props.py"; t=open(p).read()
i=t.index('with open("/verif/properties.jsonl"')
open(p,"w").write(t[:i]+sys.stdin.read().strip()+"\n"+t[i:])
